import Verif.Session.Model
import Verif.Power.Model

/-!
Runs of `ulp trigger` on a process on POWER: as `Verif.Session`, with what libpulp does there (`Verif.Power`).  The tool's
code is the same on both architectures; `tm` are the instructions of the trampoline.
-/

namespace Verif.Power.Run

open Verif.Runtime (State Request Meta World)
open Verif.Session

/-- The functions of libpulp alone, lib/ulp.c:136-260: what `Power.serve` does before the tool executes the queue. -/
def raw (tm : List UInt8) (fuel : Nat) (s : State) : Request → Option (State × Nat)
  | .apply w m => some (applyPatch tm w m s)
  | .revertAll w lib => revertAll tm fuel w lib s
  | .check id => some (s, Runtime.checkApplied s id)
  | .toggle => some (Runtime.toggle s)

/-- Running a routine in the process (`run_and_redirect`, tools/ptrace.c:500-625): what libpulp answered (if it was asked), what `run_and_redirect` returned, and the return
register. -/
def runRoutine (tm : List UInt8) (fuel : Nat) (s : State) (r : Request) : Ran → Option (State × Log × Int × Nat)
  | .done => (raw tm fuel s r).map fun x => (x.1, [(r, x.2)], 0, x.2)
  | .failed e true => (raw tm fuel s r).map fun x => (x.1, [(r, x.2)], e, x.2)
  | .failed e false => some (s, [], e, 0)

/-- `revert_patches_from_lib`, tools/introspection.c:1746-1806. -/
def revertTool (tm : List UInt8) (fuel : Nat) (x : Session) (t : Try) (lib : Str) (s : State) : Option (State × Log × Int) :=
  if !t.name then some (s, [], ETARGETHOOK)
  else
    match runRoutine tm fuel s (.revertAll t.world (revertLib x lib)) t.runRevert with
    | none => none
    | some (s, l, e, a) =>
      if e ≠ 0 then some (s, l, e)
      else
        match interp t.queueRevert s with
        | none => none
        | some (s, q) => some (s, l, if q ≠ 0 ∧ q ≠ EOLDLIBPULP then q else a)

/-- `apply_patch`, tools/introspection.c:1675-1744. -/
def applyTool (tm : List UInt8) (fuel : Nat) (t : Try) (m : Meta) (s : State) : Option (State × Log × Int) :=
  if !t.metadata then some (s, [], ETARGETHOOK)
  else
    match t.seccomp with
    | some e => some (s, [], e)
    | none =>
      match runRoutine tm fuel s (applyReq t m) t.runApply with
      | none => none
      | some (s, l, e, a) =>
        if e ≠ 0 then some (s, l, e)
        else if a ≠ 0 ∧ a ≠ EAGAIN ∧ a = t.rax then some (s, l, EHOOKNOTRUN)
        else
          match interp t.queueApply s with
          | none => none
          | some (s, q) => some (s, l, if q ≠ 0 ∧ q ≠ EOLDLIBPULP then q else a)

/-- Reverting in an attempt, tools/trigger.c:168-189: the result, the retries left, and whether applying is skipped. -/
def revertStep (tm : List UInt8) (fuel : Nat) (x : Session) (t : Try) (s : State) (result : Int) (retry : Nat) :
    Option (State × Log × Int × Nat × Bool) :=
  match x.lib with
  | none => some (s, [], result, retry, false)
  | some lib =>
    (revertTool tm fuel x t lib s).map fun y =>
      let r := if x.patch.isSome ∧ (y.2.2 = (ENOTARGETLIB : Int) ∨ y.2.2 = (ENOPATCH : Int)) then 0 else y.2.2
      (y.1, y.2.1, r, if y.2.2 = -1 ∨ r = 0 then 0 else retry, decide (r ≠ 0))

/-- Applying in an attempt, tools/trigger.c:191-203. -/
def applyStep (tm : List UInt8) (fuel : Nat) (x : Session) (t : Try) (s : State) (result : Int) (retry : Nat) (skip : Bool) :
    Option (State × Log × Int × Nat) :=
  match x.patch with
  | none => some (s, [], result, retry)
  | some m =>
    if skip then some (s, [], result, retry)
    else (applyTool tm fuel t m s).map fun y => (y.1, y.2.1, y.2.2, if y.2.2 = -1 ∨ y.2.2 = 0 then 0 else retry)

/-- An attempt after a successful hijack, tools/trigger.c:167-214 (stack check not compiled in). -/
def attempt (tm : List UInt8) (fuel : Nat) (x : Session) (t : Try) (s : State) (result : Int) (retry : Nat) : Option (State × Log × Int × Nat) :=
  match revertStep tm fuel x t s result retry with
  | none => none
  | some (s, l, result, retry, skip) =>
    (applyStep tm fuel x t s result retry skip).map fun y => (y.1, l ++ y.2.1, y.2.2.1, if t.restore ≠ 0 then 0 else y.2.2.2)

/-- The loop of `trigger_one_process`, tools/trigger.c:143-232, from attempt `i` on. -/
def loop (tm : List UInt8) (fuel : Nat) (x : Session) : (n retry i : Nat) → State → (result : Int) → Option (State × Log × Int)
  | 0, _, _, s, result => some (s, [], result)
  | n + 1, retry, i, s, result =>
    if retry = 0 then some (s, [], result)
    else
      match serveAll tm fuel s (x.env i).before with
      | none => none
      | some (s, as) =>
        if (x.env i).hijack > 0 then some (s, (x.env i).before.zip as, (x.env i).hijack)
        else
          match attempt tm fuel x (x.env i) s result (retry - 1) with
          | none => none
          | some (s, l, result, retry) =>
            (loop tm fuel x n retry (i + 1) s result).map fun y => (y.1, (x.env i).before.zip as ++ l ++ y.2.1, y.2.2)

/-- `trigger_one_process` past the checks before the loop: the process afterwards, what libpulp was asked, and the result. -/
def session (tm : List UInt8) (fuel : Nat) (s : State) (x : Session) : Option (State × Log × Int) := loop tm fuel x x.retries x.retries 0 s (-1)

/-- Many runs of the tool on the same process, with their results. -/
def sessions (tm : List UInt8) (fuel : Nat) : State → List Session → Option (State × Log × List Int)
  | s, [] => some (s, [], [])
  | s, x :: xs =>
    match session tm fuel s x with
    | none => none
    | some (s, l, r) => (sessions tm fuel s xs).map fun y => (y.1, l ++ y.2.1, r :: y.2.2)

end Verif.Power.Run
