import Verif.Crowd.Spec
import Verif.PowerCrowd.Model
import Verif.PowerSession.Spec

/-! What to expect of a process on POWER in which many tools are at work. -/

namespace Verif.Power.Throng

open Power.Spec (Fits)
open Verif.Crowd (Act)

/-- The requests fit the process; no single write of a queue fails. -/
def ActOk (F slot : Nat → Prop) : Act → Prop
  | .ask r => Fits F slot r
  | .queue f => Session.Spec.QFault.Ok f

end Verif.Power.Throng
