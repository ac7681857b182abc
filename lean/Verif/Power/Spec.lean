import Verif.Runtime.Spec
import Verif.Ppc.Spec

/-!
Where calls go on POWER, and which process images and requests are considered.  Bookkeeping by requests and
answers (`Patch`, `track`, `replacement`) is that of `Verif.Runtime.Spec`.
-/

namespace Verif.Power.Spec

open Verif.Runtime

/-- How far behind the address of a function its own NOP is in the unpatched image: nothing, or 8 bytes if
the function starts with the two instructions setting up its TOC pointer. -/
def entryOff (m : Mem) (f : Nat) : Nat := if m.load f 4 = [0x00, 0x00, 0x00, 0x60] then 0 else 8

/-- Address of the body of `f`: behind the NOP. -/
def body (m : Mem) (f : Nat) : Nat := f + entryOff m f + 4

/-- Where a call of `f` goes in memory `m`, its NOP being `off` bytes behind its address: executing the
instruction at `f + off`, it either goes on to the next instruction, or branches to the stub in the 52
bytes before `f`, which (being the 44 bytes of instructions `t`) redirects to the address stored in the 8 bytes behind
them.  Anything else is not expected, `none`. -/
def callDest (t : List UInt8) (off : Nat) (m : Mem) (f : Nat) : Option Nat :=
  match Ppc.Spec.step m (f + off) with
  | none => none
  | some p =>
    if p = (f : Int) + off + 4 then some (f + off + 4)
    else if p = (f : Int) - 52 ∧ m.load (f - 52) 44 = t then some (leVal (m.load (f - 8) 8))
    else none

/-- The bytes that livepatching `f` is to change: 52 bytes before it and the NOP. -/
def inStub (m : Mem) (f i : Nat) : Prop :=
  (f - 52 ≤ i ∧ i < f) ∨ (f + entryOff m f ≤ i ∧ i < f + entryOff m f + 4)

/-- Bytes from 52 bytes before `f` to its body. -/
def inPad (m : Mem) (f i : Nat) : Prop := f - 52 ≤ i ∧ i < body m f

/-- A process image `m` with livepatchable functions `F` and places `slot` reserved for the data
references of livepatches: every function has its NOP, a function starting with the TOC setup does not
start with a branch 52 bytes backwards, and pads and slots do not overlap. -/
structure Image (m : Mem) (F slot : Nat → Prop) : Prop where
  range : ∀ f, F f → 52 ≤ f ∧ f + 12 < 2 ^ 64
  nop : ∀ f, F f → m.load (f + entryOff m f) 4 = [0x00, 0x00, 0x00, 0x60]
  start : ∀ f, F f → m.load f 4 ≠ [0xcc, 0xff, 0xff, 0x4b]
  disjoint : ∀ f g i, F f → F g → inPad m f i → inPad m g i → f = g
  slots : ∀ f i, F f → inPad m f i → ¬ slot i

/-- A request that fits the process image: functions to be replaced are livepatchable ones of the
image (or missing), replacements are addresses, references are stored in slots. -/
def Fits (F slot : Nat → Prop) : Request → Prop
  | .apply w (.ok m) => m.type = 1 →
    (∀ u ∈ m.units, let old := w.oldSym (getBasename m.lib) u.oldName u.oldAddr
      old = 0 ∨ (F old ∧ w.newSym u.newName < 2 ^ 64)) ∧
    (∀ r ∈ m.refs, ∀ so, w.soBase = some so →
      Runtime.Spec.refAddr w so r < 2 ^ 64 ∧ ∀ i, Runtime.Spec.refAddr w so r ≤ i →
        i < Runtime.Spec.refAddr w so r + Runtime.Spec.refSize r → slot i)
  | _ => True

/-- Address that `__tls_get_addr` returns on POWER for the offset `off` in a `tls_index` whose module has its
thread-local block at `block`: the C library adds 0x8000. -/
def tlsGetAddr (block off : Nat) : Nat := (block + off + 0x8000) % 2 ^ 64

end Verif.Power.Spec
