import Verif.Tools.Model

/-! What to expect of several tools at work on one process. -/

namespace Verif.Tools

open Verif.Runtime (State Request)

/-- A tool is in its critical section: it has stopped the process and may change it. -/
def Conf.Inside (c : Conf) (i : Nat) : Prop := ∃ k, c.phase i = .crit k

/-- Nobody is in a critical section. -/
def Conf.Quiet (c : Conf) : Prop := ∀ i, ¬ c.Inside i

/-- A thread that may run code. -/
def Conf.Running (c : Conf) (t : Nat) : Prop := c.alive t ∧ c.tracer t = none

/-- The tools that got through, in the order in which they left: as one after the other, with what libpulp answered. -/
def OneByOne (fuel : Nat) (s : State) (log : List (Nat × Request × Nat)) (s' : State) : Prop :=
  Runtime.serveAll fuel s (log.map (·.2.1)) = some (s', log.map (·.2.2))

end Verif.Tools
