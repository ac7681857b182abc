import Verif.Session.Model

/-!
`ulp trigger` with several live patches for one process, with and without `--revert-all`: one run of `trigger_one_process`
(`Verif.Session`) after the other.  Which files are taken for live patches, and the summary of the results, are modelled
in `Verif.Trigger`; the checks before the attempts in `Verif.Prepare`.
-/

namespace Verif.Many

open Verif.Runtime (State Meta)
open Verif.Session (Session Try Log session)

/-- A live patch that is found: the error with which the tool gives up before the first attempt, if any
(tools/trigger.c:101-131), its metadata, and what happens in the attempts. -/
structure Found where
  early : Option Int
  patch : Meta
  env : Nat → Try

/-- What is asked for one of the live patches, tools/trigger.c:347. -/
def Found.session (lib : Option Str) (retries : Nat) (f : Found) : Session :=
  { lib := lib, patch := some f.patch, retries := retries, env := f.env }

/-- `trigger_one_process`, tools/trigger.c:85-252: the process afterwards, what libpulp was asked, and the result. -/
def one (fuel : Nat) (lib : Option Str) (retries : Nat) (s : State) (f : Found) : Option (State × Log × Int) :=
  match f.early with
  | some e => some (s, [], e)
  | none => session fuel s (f.session lib retries)

/-- The loop of `trigger_many_ulps` over the live patches, tools/trigger.c:290-357, in the order of `readdir`; with the result
for each, as kept at tools/trigger.c:232-245. -/
def many (fuel : Nat) (lib : Option Str) (retries : Nat) : State → List Found → Option (State × Log × List Int)
  | s, [] => some (s, [], [])
  | s, f :: fs =>
    match one fuel lib retries s f with
    | none => none
    | some (s, l, r) => (many fuel lib retries s fs).map fun y => (y.1, l ++ y.2.1, r :: y.2.2)

/-- The same command again and again (not a function of the code), with the results of each time. -/
def again (fuel : Nat) (retries : Nat) (fs : List Found) : Nat → State → Option (State × Log × List (List Int))
  | 0, s => some (s, [], [])
  | n + 1, s =>
    match many fuel none retries s fs with
    | none => none
    | some (s, l, r) => (again fuel retries fs n s).map fun y => (y.1, l ++ y.2.1, r :: y.2.2)

end Verif.Many
