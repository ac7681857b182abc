import Verif.Base.Err

/-!
Model of the control flow of `ulp trigger`: the attempts made on a process, and what becomes of the results over all
processes.
-/

namespace Verif.Trigger

/-- What the steps of an attempt on a process return (C `int`s). -/
structure Attempt where
  hijack : Int
  revert : Int
  apply : Int
  restore : Int
deriving DecidableEq, Repr

/-- What the tool does to the process. -/
inductive Event where
  | hijack
  | revert
  | apply
  | restore
deriving DecidableEq, Repr

/-- What is asked for: `--revert-all` (`revert_library`), and a livepatch to apply. -/
structure Task where
  revert : Bool
  livepatch : Bool
deriving DecidableEq, Repr

/-- One attempt after a successful hijack, tools/trigger.c:167-214 (stack check not compiled in): `result` and `retry`
afterwards, and the events. -/
def attempt (task : Task) (a : Attempt) (result : Int) (retry : Nat) : Int × Nat × List Event :=
  -- revert, 168-189
  let (result, retry, skip, ev) :=
    if task.revert then
      let result := a.revert
      let retry := if result = -1 then 0 else retry
      let result := if task.livepatch ∧ (result = ENOTARGETLIB ∨ result = ENOPATCH) then 0 else result
      if result ≠ 0 then (result, retry, true, [Event.revert]) else (result, 0, false, [Event.revert])
    else (result, retry, false, [])
  -- apply, 191-203
  let (result, retry, ev) :=
    if task.livepatch ∧ skip = false then
      let result := a.apply
      let retry := if result = -1 then 0 else retry
      if result ≠ 0 then (result, retry, ev ++ [Event.apply]) else (result, 0, ev ++ [Event.apply])
    else (result, retry, ev)
  -- restore, 208-212
  let retry := if a.restore ≠ 0 then 0 else retry
  (result, retry, ev ++ [Event.restore])

/-- The loop of `trigger_one_process`, tools/trigger.c:143-232.  `env i` is what the process answers in attempt `i`.
Returns the result and the events of each attempt made. -/
def loop (task : Task) (env : Nat → Attempt) : (fuel retry i : Nat) → (result : Int) → Int × List (List Event)
  | 0, _, _, result => (result, [])
  | fuel + 1, retry, i, result =>
    if retry = 0 then (result, [])
    else
      let a := env i
      if a.hijack > 0 then (a.hijack, [[.hijack]])
      else
        let (result, retry', ev) := attempt task a result (retry - 1)
        let (r, evs) := loop task env fuel retry' (i + 1) result
        (r, (.hijack :: ev) :: evs)

/-- `trigger_one_process` past the checks before the loop, with `retries` ≥ 1 (tools/ulp.c:300-304, 531). -/
def triggerOne (task : Task) (env : Nat → Attempt) (retries : Nat) : Int × List (List Event) :=
  loop task env retries retries 0 (-1)

/-! ### Many processes -/

/-- `skippable_error`, tools/trigger.c:53-59, on a C `int`. -/
def skippableError (e : BitVec 32) : Bool :=
  e.toNat == EBUILDID || e.toNat == ENOTARGETLIB || e.toNat == EUSRBLOCKED || e.toNat == EWILDNOMATCH
    || e.toNat == EAPPLIED || e.toNat == ENOPATCH || e.toNat == ESRCH

/-- Return value and counters of `trigger_many_processes`. -/
structure Summary where
  ret : BitVec 32
  successes : Nat
  skippes : Nat
  failures : Nat
deriving DecidableEq, Repr

/-- One process, file given, tools/trigger.c:536-553; `r` is the result of `trigger_one_process`. -/
def fileStep (s : Summary) (r : BitVec 32) : Summary :=
  if skippableError r then { s with skippes := s.skippes + 1 }
  else
    let s := { s with ret := s.ret ||| r }
    if r = 0#32 then { s with successes := s.successes + 1 } else { s with failures := s.failures + 1 }

/-- `trigger_many_processes` for one livepatch file, tools/trigger.c:494-566. -/
def manyFile (rs : List (BitVec 32)) : Summary := rs.foldl fileStep ⟨0#32, 0, 0, 0⟩

/-- A directory entry as `trigger_many_ulps` sees it, tools/trigger.c:288-343: a file that matches and the result of
`trigger_one_process` with it, a file that does not match, or a directory (whose name does not end in .so). -/
inductive Entry where
  | file (r : BitVec 32)
  | other
  | dir (es : List Entry)

/-- The flags of `trigger_many_ulps`, tools/trigger.c:350-359. -/
def flagOf (r : BitVec 32) : Nat := if r = 0#32 then 1 else if skippableError r then 2 else 4

/-- `trigger_many_ulps`, tools/trigger.c:262-367: the flags; what is returned for a subdirectory (:325) is not
used. -/
def manyUlps : List Entry → Nat
  | [] => 0
  | .file r :: es => flagOf r ||| manyUlps es
  | .other :: es => manyUlps es
  | .dir _ :: es => manyUlps es

/-- One process in wildcard mode, tools/trigger.c:515-535. -/
def wildStep (s : Summary) (es : List Entry) : Summary :=
  let r := manyUlps es
  let s := if r &&& 1 ≠ 0 then { s with successes := s.successes + 1 }
    else if r &&& 2 ≠ 0 then { s with skippes := s.skippes + 1 } else s
  if r &&& 4 ≠ 0 then { s with failures := s.failures + 1 } else s

/-- `trigger_many_processes` with a wildcard: for each process, what happens with each entry. -/
def manyWild (ps : List (List Entry)) : Summary := ps.foldl wildStep ⟨0#32, 0, 0, 0⟩

/-- The exit status of the tool: `main` returns what `run_trigger` does, tools/ulp.c:573-575, 598, and the system keeps the
low 8 bits. -/
def exitStatus (ret : BitVec 32) : Nat := ret.toNat % 256

end Verif.Trigger
