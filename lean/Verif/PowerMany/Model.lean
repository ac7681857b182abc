import Verif.Many.Model
import Verif.PowerSession.Model

/-!
`ulp trigger` with several live patches for one process on POWER, as in `Verif.Many`: one run after the other (`Verif.PowerSession`).
`tm` are the instructions of the trampoline.
-/

namespace Verif.Power.Run.Series

open Verif.Runtime (State Meta)
open Verif.Session (Session Try Log)
open Verif.Many (Found Found.session)

/-- `trigger_one_process`, tools/trigger.c:85-252: the process afterwards, what libpulp was asked, and the result. -/
def one (tm : List UInt8) (fuel : Nat) (lib : Option Str) (retries : Nat) (s : State) (f : Found) : Option (State × Log × Int) :=
  match f.early with
  | some e => some (s, [], e)
  | none => session tm fuel s (f.session lib retries)

/-- The loop of `trigger_many_ulps` over the live patches, tools/trigger.c:290-357, in the order of `readdir`; with the result
for each, as kept at tools/trigger.c:232-245. -/
def many (tm : List UInt8) (fuel : Nat) (lib : Option Str) (retries : Nat) : State → List Found → Option (State × Log × List Int)
  | s, [] => some (s, [], [])
  | s, f :: fs =>
    match one tm fuel lib retries s f with
    | none => none
    | some (s, l, r) => (many tm fuel lib retries s fs).map fun y => (y.1, l ++ y.2.1, r :: y.2.2)

/-- The same command again and again (not a function of the code), with the results of each time. -/
def again (tm : List UInt8) (fuel : Nat) (retries : Nat) (fs : List Found) : Nat → State → Option (State × Log × List (List Int))
  | 0, s => some (s, [], [])
  | n + 1, s =>
    match many tm fuel none retries s fs with
    | none => none
    | some (s, l, r) => (again tm fuel retries fs n s).map fun y => (y.1, l ++ y.2.1, r :: y.2.2)

end Verif.Power.Run.Series
