import Verif.Trigger.Model

/-!
Model of what `ulp trigger` prints about a process: `print_patched_unpatched`,
tools/trigger.c:370-475, and the list of results it is given (tools/trigger.c:233-248).
-/

namespace Verif.Report

open Verif.Trigger (skippableError)

abbrev Bytes := List UInt8

/-- `struct trigger_results`: a patch that was tried (its path) and the error, a C `int`
(tools/trigger.c:233-248).  The list holds the last attempt first. -/
structure Result where
  name : Bytes
  err : BitVec 32
deriving DecidableEq, Repr

/-- What is printed: the header line with name and pid of the process is one value, the rest of the
line or the lines below it are the others.  The texts of errors are not modelled: the code stands for
them. -/
inductive Out where
  /-- `  name (pid: n):` -/
  | header
  /-- ` SKIPPED error`, without the name of a patch (:431-434) -/
  | skippedAll (err : BitVec 32)
  /-- `SKIPPED patch: error` (:455-459) -/
  | skipped (name : Bytes) (err : BitVec 32)
  /-- `FAILED patch: error` (:437-441, 463-467) -/
  | failed (name : Bytes) (err : BitVec 32)
  /-- ` FAILED` and nothing else (:437-441 without a result) -/
  | failedNameless
  /-- `SUCCESS patch` (:444-448, 470-473) -/
  | success (name : Bytes)
  /-- ` SUCCESS` and nothing else -/
  | successNameless
deriving DecidableEq, Repr

/-- The two errors called minor, tools/trigger.c:388, 401, 409, 452. -/
def minor (e : BitVec 32) : Bool := e.toNat == EBUILDID || e.toNat == ENOTARGETLIB

/-- First loop, tools/trigger.c:386-394: `err` and `hide_skipped`. -/
def scan : List Result → (err : BitVec 32) → (hide : Bool) → BitVec 32 × Bool
  | [], err, hide => (err, hide)
  | r :: rs, err, hide => if r.err = 0#32 ∨ minor r.err = false then scan rs r.err true else scan rs err hide

/-- Second loop, tools/trigger.c:396-419: `summarized` and `summarized_result`. -/
def condense (err : BitVec 32) (hide : Bool) :
    List Result → (summarized : Bool) → (chosen : Option Result) → Bool × Option Result
  | [], summarized, chosen => (summarized, chosen)
  | r :: rs, summarized, chosen =>
    if hide = true ∧ minor r.err = true then condense err hide rs summarized chosen
    else if r.err ≠ err then condense err hide rs false chosen
    else if minor r.err = false then
      condense err hide rs (if chosen.isSome then false else summarized) (if chosen.isSome then chosen else some r)
    else condense err hide rs summarized chosen

/-- A line of the long form, tools/trigger.c:451-474. -/
def longLine (hide : Bool) (r : Result) : Option Out :=
  if minor r.err then (if hide then none else some (.skipped r.name r.err))
  else if r.err ≠ 0#32 then some (.failed r.name r.err)
  else some (.success r.name)

/-- The short form, tools/trigger.c:430-449. -/
def shortLine (err : BitVec 32) (chosen : Option Result) : Out :=
  if skippableError err then .skippedAll err
  else if err ≠ 0#32 then
    match chosen with
    | some c => .failed c.name err
    | none => .failedNameless
  else
    match chosen with
    | some c => .success c.name
    | none => .successNameless

/-- `EUNKNOWN`, include/error_common.h. -/
def firstErr : List Result → BitVec 32
  | [] => BitVec.ofNat 32 EUNKNOWN
  | r :: _ => r.err

/-- `print_patched_unpatched`, tools/trigger.c:370-475; `summarize` is false with
`--no-summarization`. -/
def print (results : List Result) (summarize : Bool) : List Out :=
  let (err, hide) := scan results (firstErr results) false
  let (summarized, chosen) := condense err hide results true none
  if chosen = none ∧ summarized = true then []
  else
    let (summarized, hide) := if summarize then (summarized, hide) else (false, false)
    if summarized then [.header, shortLine err chosen]
    else .header :: results.filterMap (longLine hide)

end Verif.Report
