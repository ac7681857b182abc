import Verif.ErrState.Model
import Verif.Names.Model

/-!
Model of the command `ulp set_patchable` as a whole (tools/set_patchable.c:115-142): its argument, the processes it goes through (topic Names), what it
does to each (topic ErrState), what it prints, and its exit status.
-/

namespace Verif.Switch

open Verif.ErrState (Att Report setPatchable)

/-- `tolower` in the C locale, which the tool does not leave. -/
def lower (c : UInt8) : UInt8 := if 65 ≤ c ∧ c ≤ 90 then c + 32 else c

/-- `strcasecmp (a, b) == 0` -/
def caseEq (a b : Str) : Bool := a.map lower == b.map lower

def enableWord : Str := "enable".toUTF8.toList
def disableWord : Str := "disable".toUTF8.toList

/-- The argument, tools/set_patchable.c:126-135: enabling, disabling, or an error. -/
def word (arg : Str) : Option Bool :=
  if caseEq arg enableWord then some true
  else if arg = disableWord then some false
  else none

/-- What happens when the tool comes to a process: whether `get_libpulp_error_state_remote` can read the state (tools/introspection.c:2662-2689) and
what it returns otherwise (`EUNKNOWN` or `EOLDLIBPULP`), and the attempts. -/
structure Visit where
  readable : Bool
  otherwise : Err
  env : Nat → Att

/-- `enable_or_disable_patching` on a process in that state, tools/set_patchable.c:63-112. -/
def visit (v : Visit) (retries : Nat) (enable : Bool) (state : Err) : Err × Option Report :=
  if v.readable then setPatchable v.env retries enable state
  else (state, some (.refused v.otherwise))

/-- A line about a process: "livepatching is now enabled/disabled", "Unable to change status", or one of these, depending on a variable that is
not assigned. -/
inductive Line where
  | now (pid : Nat)
  | unable (pid : Nat)
  | undefined (pid : Nat)
deriving DecidableEq, Repr

/-- tools/set_patchable.c:95-106; what the function returns is not used, :139. -/
def print (pid : Nat) : Option Report → List Line
  | some .changed => [.now pid]
  | some (.unable _) => [.unable pid]
  | some (.refused _) => []
  | none => [.undefined pid]

/-- The loop, tools/set_patchable.c:137-140.  `states` are the error states of all processes, `vs i` is what happens the `i`-th time. -/
def each (vs : Nat → Visit) (retries : Nat) (enable : Bool) : (i : Nat) → List Nat → (Nat → Err) → (Nat → Err) × List Line
  | _, [], states => (states, [])
  | i, p :: ps, states =>
    let r := visit (vs i) retries enable (states p)
    let x := each vs retries enable (i + 1) ps (fun q => if q = p then r.1 else states q)
    (x.1, print p r.2 ++ x.2)

/-- What a command has done. -/
structure Done where
  status : Nat
  states : Nat → Err
  lines : List Line

/-- `run_set_patchable`, tools/set_patchable.c:115-142; `procs` are the processes that the iterator gives. -/
def run (vs : Nat → Visit) (retries : Nat) (arg : Str) (procs : List Nat) (states : Nat → Err) : Done :=
  match word arg with
  | none => ⟨1, states, []⟩
  | some enable =>
    let x := each vs retries enable 0 procs states
    ⟨0, x.1, x.2⟩

/-- The same with the processes selected by name and owner. -/
def command (w : Names.World) (fuel : Nat) (wild user : Option Str) (ts : List Names.Task) (vs : Nat → Visit) (retries : Nat) (arg : Str)
    (states : Nat → Err) : Done :=
  run vs retries arg (Names.found w fuel wild user ts) states

end Verif.Switch
