import Verif.Crowd.Model
import Verif.Session.Spec

/-! What to expect of a process in which many tools are at work. -/

namespace Verif.Crowd

open Verif.Runtime.Spec (Fits)

/-- A thread that may run code. -/
def Conf.Running (c : Conf) (t : Nat) : Prop := c.alive t ∧ c.tracer t = none

/-- The requests fit the process; no single write of a queue fails. -/
def Act.Ok (m₀ : Mem) (F slot : Nat → Prop) : Act → Prop
  | .ask r => Fits m₀ F slot r
  | .queue f => Session.Spec.QFault.Ok f

end Verif.Crowd
