import Verif.Killed.Model
import Verif.Session.Spec

/-! What to expect of a process when the tool at work on it is killed. -/

namespace Verif.Killed.Spec

open Verif.Killed

/-- The process goes on as if no tool had ever been there. -/
def Fine (c : Conf) : Prop := c.proc = .going ∧ ∀ t x, c.th t = some x → x = free

/-- The tool has stopped some thread, or has begun to stop the main one. -/
def Holding (main : Nat) (c : Conf) : Prop := ∃ t x, c.th t = some x ∧ x.traced = true ∧ (x.stop ≠ none ∨ t = main)

/-- The tool has no thread. -/
def HandsOff (c : Conf) : Prop := ∀ t x, c.th t = some x → x.traced = false

/-- The main thread has the registers of a routine, or stands at its `int3` and takes the signal for that. -/
def Taken (keep : Nat → Bool) (main : Nat) (c : Conf) : Prop := ∃ x, c.th main = some x ∧ (x.ctx ≠ .own ∨ x.stop = some .trap ∧ keep main = true)

/-- Every thread that the tool has attached to has stopped. -/
def Settled (c : Conf) : Prop := ∀ t x, c.th t = some x → x.pend = false

end Verif.Killed.Spec
