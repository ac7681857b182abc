import Verif.Tools.Spec
import Verif.PowerTools.Model

/-! What to expect of several tools at work on one process on POWER. -/

namespace Verif.Power.Crew

open Verif.Runtime (State Request)

/-- The tools that got through, in the order in which they left: as one after the other, with what libpulp answered. -/
def OneByOne (tm : List UInt8) (fuel : Nat) (s : State) (log : List (Nat × Request × Nat)) (s' : State) : Prop :=
  Power.serveAll tm fuel s (log.map (·.2.1)) = some (s', log.map (·.2.2))

end Verif.Power.Crew
