import Verif.Runtime.Model
import Verif.X86.Spec

/-!
What a user of livepatching expects, in terms of requests, answers and where calls go.
-/

namespace Verif.Runtime.Spec

/-- A patch as the user knows it: its name, the library it is for, the patches it depends on, and which
function it replaces by what (run-time addresses). -/
structure Patch where
  id : Id
  lib : Str
  deps : List Id
  repl : List (Nat × Nat)
deriving DecidableEq, Repr

/-- Library names are compared by their first 256 characters. -/
def libKey (s : Str) : Str := (getBasename s).take 256

/-- The patch that metadata describes in a given process. -/
def patchOf (w : World) (m : Meta) : Patch :=
  { id := m.id, lib := libKey m.lib, deps := m.deps,
    repl := m.units.map fun u => (w.oldSym (getBasename m.lib) u.oldName u.oldAddr, w.newSym u.newName) }

/-- Bookkeeping by requests and answers only: a successful apply puts the patch on top, a successful
revert takes it away, a successful revert-all takes away the patches of that library. -/
def track (ps : List Patch) : Request → (answer : Nat) → List Patch
  | .apply w (.ok m), 0 =>
    if m.type = 1 then patchOf w m :: ps
    else if m.type = 2 then ps.filter (fun p => p.id ≠ m.id)
    else ps
  | .revertAll _ lib, 0 => ps.filter (fun p => p.lib ≠ libKey lib)
  | _, _ => ps

def trackAll (ps : List Patch) : List Request → List Nat → List Patch
  | r :: rs, a :: as => trackAll (track ps r a) rs as
  | _, _ => ps

/-- The replacement in force for `f`: that of the newest patch replacing `f` (if it does so more than
once, the last time), `none` if there is none. -/
def replacement : List Patch → Nat → Option Nat
  | [], _ => none
  | p :: ps, f => match (p.repl.filter (fun u => u.1 = f)).getLast? with
    | some u => some u.2
    | none => replacement ps f

/-- Bytes of the entry pad of `f`: 14 bytes in front of it and the entry up to the body. -/
def inPad (m : Mem) (f i : Nat) : Prop := f - 14 ≤ i ∧ i < X86.Spec.body m f

/-- A process image `m` with livepatchable functions `F` and places `slot` reserved for the data
references of livepatches: every function has a nop pad, and pads and slots do not overlap. -/
structure Image (m : Mem) (F slot : Nat → Prop) : Prop where
  range : ∀ f, F f → 14 ≤ f ∧ f + 6 < 2 ^ 64
  pad : ∀ f, F f → m.load (X86.Spec.body m f - 2) 2 = [0x90, 0x90] ∨ m.load (X86.Spec.body m f - 2) 2 = [0x66, 0x90]
  disjoint : ∀ f g i, F f → F g → inPad m f i → inPad m g i → f = g
  slots : ∀ f i, F f → inPad m f i → ¬ slot i

/-- Where a reference is stored. -/
def refAddr (w : World) (soBase : Nat) (r : RefM) : Nat :=
  if r.patchOff = 0 then w.newSym r.refName else (soBase + r.patchOff) % 2 ^ 64

/-- Size of a stored reference. -/
def refSize (r : RefM) : Nat := if r.tls then 16 else 8

/-- A request that fits the process image: functions to be replaced are livepatchable ones of the
image (or missing), replacements are addresses outside of the function's own pad, references are
stored in slots. -/
def Fits (m₀ : Mem) (F slot : Nat → Prop) : Request → Prop
  | .apply w (.ok m) => m.type = 1 →
    (∀ u ∈ m.units, let old := w.oldSym (getBasename m.lib) u.oldName u.oldAddr
      old = 0 ∨ (F old ∧ w.newSym u.newName < 2 ^ 64 ∧ ¬ inPad m₀ old (w.newSym u.newName))) ∧
    (∀ r ∈ m.refs, ∀ so, w.soBase = some so →
      refAddr w so r < 2 ^ 64 ∧ ∀ i, refAddr w so r ≤ i → i < refAddr w so r + refSize r → slot i)
  | _ => True

/-- No internal error has been recorded (livepatching may be blocked by the user). -/
def healthy (e : Err) : Prop := e = ENONE ∨ e = EUSRBLOCKED

/-- The instruction queue is empty and of a version the tool understands: the situation between
requests. -/
structure Idle (s : State) : Prop where
  num : s.q.num = 0
  size : s.q.size = 0
  ver : s.q.version ≤ 1

/-- Answer to a request while an error `e` is recorded. -/
def frozenAnswer (e : Err) : Request → Nat
  | .check _ => 0
  | _ => e

def isToggle : Request → Bool
  | .toggle => true
  | _ => false

/-- The answers of the rest of the process to a request, if it needs any. -/
def isBusy : Request → Bool
  | .apply w _ => w.busy
  | .revertAll w _ => w.busy
  | _ => false

/-- Some request of the history is to replace the function at `f`. -/
def namesFunction (reqs : List Request) (f : Nat) : Prop :=
  ∃ w m, Request.apply w (.ok m) ∈ reqs ∧ m.type = 1 ∧
    ∃ u ∈ m.units, w.oldSym (getBasename m.lib) u.oldName u.oldAddr = f

/-- Byte `i` belongs to a reference declared by some request of the history. -/
def declaresReference (reqs : List Request) (i : Nat) : Prop :=
  ∃ w m so, Request.apply w (.ok m) ∈ reqs ∧ m.type = 1 ∧ w.soBase = some so ∧
    ∃ r ∈ m.refs, refAddr w so r ≤ i ∧ i < refAddr w so r + refSize r

end Verif.Runtime.Spec
