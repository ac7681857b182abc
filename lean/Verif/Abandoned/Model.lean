import Verif.Session.Model
import Verif.Power.Model

/-!
Requests whose tool ends (killed, or failing) after libpulp has answered and before it executes the queue
(tools/introspection.c:1722-1741,1783-1801): what libpulp does is done, and its queue stays as it is.
-/

namespace Verif.Abandoned

open Verif.Runtime

/-- Any number of requests, one after the other, each abandoned by its tool: the functions of libpulp alone (`Session.raw`). -/
def abandoned (fuel : Nat) : State → List Request → Option (State × List Nat)
  | s, [] => some (s, [])
  | s, r :: rs => match Session.raw fuel s r with
    | none => none
    | some (s, a) => (abandoned fuel s rs).map fun (s, as) => (s, a :: as)

end Verif.Abandoned

namespace Verif.Power.Abandoned

open Verif.Runtime (State Request)

/-- The functions of libpulp alone: what `Power.serve` does before the tool executes the queue. -/
def raw (t : List UInt8) (fuel : Nat) (s : State) : Request → Option (State × Nat)
  | .apply w m => some (applyPatch t w m s)
  | .revertAll w lib => revertAll t fuel w lib s
  | .check id => some (s, Runtime.checkApplied s id)
  | .toggle => some (Runtime.toggle s)

/-- Any number of requests, one after the other, each abandoned by its tool. -/
def abandoned (t : List UInt8) (fuel : Nat) : State → List Request → Option (State × List Nat)
  | s, [] => some (s, [])
  | s, r :: rs => match raw t fuel s r with
    | none => none
    | some (s, a) => (abandoned t fuel s rs).map fun (s, as) => (s, a :: as)

end Verif.Power.Abandoned
