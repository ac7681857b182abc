import Verif.Runtime.Model

/-!
Runs of `ulp trigger` on a process, with all that can go wrong between the tool and the process: attempts, reverting and
applying, the queue, and other users of the process in between.  What libpulp does is modelled in `Verif.Runtime`; what
comes before the attempts in `Verif.Prepare`.

Not modelled: a routine that is taken for finished before its end (`Verif.Redirect`), the instructions of the thread
(`Verif.Midway`), and the check of the stack (`Verif.StackCheck`).
-/

namespace Verif.Session

open Verif.Runtime (State Request Meta World)
open Verif.InsnQueue (Event)

/-- What goes wrong when the tool executes the queue: its address is not known, its header or its body (`errno`) cannot be read,
a write fails (after so many bytes), it cannot be reset (`false`: not at all; `true`: only the size). -/
structure QFault where
  found : Bool
  header : Bool
  body : Option Nat
  write : Nat → Option Nat
  reset : Option Bool

/-- `insnq_interpret_from_process_`, tools/insn_queue.c:174-212 with `insnq_get_from_remote_process` (:62-93) and
`insnq_update_remote` (:106-127); `none`: the tool reads outside of the queue. -/
def interp (f : QFault) (s : State) : Option (State × Nat) :=
  if !f.found then some (s, EOLDLIBPULP)
  else if !f.header then some (s, EINSNQ)
  else
    let q := InsnQueue.fetch s.q
    if q.2 ≠ ENONE then some (s, q.2)
    else if s.q.size ≠ 0 ∧ f.body.isSome then some (s, f.body.getD 0)
    else
      let r := InsnQueue.interpret q.1 f.write
      let mem := r.1.foldl Event.apply s.mem
      match r.2 with
      | .oob => none
      | .einsnq => some ({ s with mem := mem }, EINSNQ)
      | .ok =>
        match f.reset with
        | none => some ({ s with mem := mem, q := { s.q with size := 0, num := 0 } }, 0)
        | some false => some ({ s with mem := mem }, EINSNQ)
        | some true => some ({ s with mem := mem, q := { s.q with size := 0 } }, EINSNQ)

/-- How `run_and_redirect` (tools/ptrace.c:500-625) ends: with 0, the routine having run to its end, or with an error, the routine
having run to its end or not at all. -/
inductive Ran where
  | done
  | failed (e : Int) (ran : Bool)
deriving DecidableEq, Repr

/-- What libpulp has been asked, and what it answered. -/
abbrev Log := List (Request × Nat)

/-- The functions of libpulp alone: what `Runtime.serve` does before the tool executes the queue. -/
def raw (fuel : Nat) (s : State) : Request → Option (State × Nat)
  | .apply w m => some (Runtime.applyPatch w m s)
  | .revertAll w lib => Runtime.revertAll fuel w lib s
  | .check id => some (s, Runtime.checkApplied s id)
  | .toggle => some (Runtime.toggle s)

/-- Running a routine in the process: what libpulp answered (if it was asked), what `run_and_redirect` returned, and the return
register. -/
def runRoutine (fuel : Nat) (s : State) (r : Request) : Ran → Option (State × Log × Int × Nat)
  | .done => (raw fuel s r).map fun x => (x.1, [(r, x.2)], 0, x.2)
  | .failed e true => (raw fuel s r).map fun x => (x.1, [(r, x.2)], e, x.2)
  | .failed e false => some (s, [], e, 0)

/-- An attempt: what other users of the process do before it, and what happens in it. `name`, `metadata`: whether
the buffer can be written, `seccomp`: why seccomp cannot be switched off, `noMem`: the error with which parsing fails in the
process, `rax`: the return register of the thread before. -/
structure Try where
  before : List Request
  hijack : Int
  world : World
  name : Bool
  runRevert : Ran
  queueRevert : QFault
  metadata : Bool
  seccomp : Option Int
  noMem : Option Err
  rax : Nat
  runApply : Ran
  queueApply : QFault
  restore : Int

/-- What is asked of `ulp trigger`, and all attempts that may be made: the library of `--revert-all`, the live patch (or
the metadata to revert it). -/
structure Session where
  lib : Option Str
  patch : Option Meta
  retries : Nat
  env : Nat → Try

/-- "target" -/
def targetName : Str := [116, 97, 114, 103, 101, 116]

/-- The library whose patches are reverted, tools/introspection.c:1756-1764. -/
def revertLib (x : Session) (lib : Str) : Str :=
  match x.patch with
  | some m => if lib = targetName then m.lib else lib
  | none => lib

/-- `revert_patches_from_lib`, tools/introspection.c:1746-1806. -/
def revertTool (fuel : Nat) (x : Session) (t : Try) (lib : Str) (s : State) : Option (State × Log × Int) :=
  if !t.name then some (s, [], ETARGETHOOK)
  else
    match runRoutine fuel s (.revertAll t.world (revertLib x lib)) t.runRevert with
    | none => none
    | some (s, l, e, a) =>
      if e ≠ 0 then some (s, l, e)
      else
        match interp t.queueRevert s with
        | none => none
        | some (s, q) => some (s, l, if q ≠ 0 ∧ q ≠ EOLDLIBPULP then q else a)

/-- The request to apply (or revert) the patch. -/
def applyReq (t : Try) (m : Meta) : Request :=
  .apply t.world (match t.noMem with | none => .ok m | some e => .error e)

/-- `apply_patch`, tools/introspection.c:1675-1744. -/
def applyTool (fuel : Nat) (t : Try) (m : Meta) (s : State) : Option (State × Log × Int) :=
  if !t.metadata then some (s, [], ETARGETHOOK)
  else
    match t.seccomp with
    | some e => some (s, [], e)
    | none =>
      match runRoutine fuel s (applyReq t m) t.runApply with
      | none => none
      | some (s, l, e, a) =>
        if e ≠ 0 then some (s, l, e)
        else if a ≠ 0 ∧ a ≠ EAGAIN ∧ a = t.rax then some (s, l, EHOOKNOTRUN)
        else
          match interp t.queueApply s with
          | none => none
          | some (s, q) => some (s, l, if q ≠ 0 ∧ q ≠ EOLDLIBPULP then q else a)

/-- Reverting in an attempt, tools/trigger.c:168-189: the result, the retries left, and whether applying is skipped. -/
def revertStep (fuel : Nat) (x : Session) (t : Try) (s : State) (result : Int) (retry : Nat) :
    Option (State × Log × Int × Nat × Bool) :=
  match x.lib with
  | none => some (s, [], result, retry, false)
  | some lib =>
    (revertTool fuel x t lib s).map fun y =>
      let r := if x.patch.isSome ∧ (y.2.2 = (ENOTARGETLIB : Int) ∨ y.2.2 = (ENOPATCH : Int)) then 0 else y.2.2
      (y.1, y.2.1, r, if y.2.2 = -1 ∨ r = 0 then 0 else retry, decide (r ≠ 0))

/-- Applying in an attempt, tools/trigger.c:191-203. -/
def applyStep (fuel : Nat) (x : Session) (t : Try) (s : State) (result : Int) (retry : Nat) (skip : Bool) :
    Option (State × Log × Int × Nat) :=
  match x.patch with
  | none => some (s, [], result, retry)
  | some m =>
    if skip then some (s, [], result, retry)
    else (applyTool fuel t m s).map fun y => (y.1, y.2.1, y.2.2, if y.2.2 = -1 ∨ y.2.2 = 0 then 0 else retry)

/-- An attempt after a successful hijack, tools/trigger.c:167-214 (stack check not compiled in). -/
def attempt (fuel : Nat) (x : Session) (t : Try) (s : State) (result : Int) (retry : Nat) : Option (State × Log × Int × Nat) :=
  match revertStep fuel x t s result retry with
  | none => none
  | some (s, l, result, retry, skip) =>
    (applyStep fuel x t s result retry skip).map fun y => (y.1, l ++ y.2.1, y.2.2.1, if t.restore ≠ 0 then 0 else y.2.2.2)

/-- The loop of `trigger_one_process`, tools/trigger.c:143-232, from attempt `i` on. -/
def loop (fuel : Nat) (x : Session) : (n retry i : Nat) → State → (result : Int) → Option (State × Log × Int)
  | 0, _, _, s, result => some (s, [], result)
  | n + 1, retry, i, s, result =>
    if retry = 0 then some (s, [], result)
    else
      match Runtime.serveAll fuel s (x.env i).before with
      | none => none
      | some (s, as) =>
        if (x.env i).hijack > 0 then some (s, (x.env i).before.zip as, (x.env i).hijack)
        else
          match attempt fuel x (x.env i) s result (retry - 1) with
          | none => none
          | some (s, l, result, retry) =>
            (loop fuel x n retry (i + 1) s result).map fun y => (y.1, (x.env i).before.zip as ++ l ++ y.2.1, y.2.2)

/-- `trigger_one_process` past the checks before the loop: the process afterwards, what libpulp was asked, and the result. -/
def session (fuel : Nat) (s : State) (x : Session) : Option (State × Log × Int) := loop fuel x x.retries x.retries 0 s (-1)

/-- Many runs of the tool on the same process, with their results. -/
def sessions (fuel : Nat) : State → List Session → Option (State × Log × List Int)
  | s, [] => some (s, [], [])
  | s, x :: xs =>
    match session fuel s x with
    | none => none
    | some (s, l, r) => (sessions fuel s xs).map fun y => (y.1, l ++ y.2.1, r :: y.2.2)

end Verif.Session
