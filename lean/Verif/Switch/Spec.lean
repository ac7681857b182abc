import Verif.Switch.Model

/-!
What the command is asked for.
-/

namespace Verif.Switch

/-- Two characters are the same, but that one may be a capital and the other a small letter. -/
def SameLetter (c d : UInt8) : Prop := c = d ∨ (97 ≤ d ∧ d ≤ 122 ∧ c = d - 32) ∨ (97 ≤ c ∧ c ≤ 122 ∧ d = c - 32)

/-- Two words are the same but for the case of letters. -/
def SameWord : Str → Str → Prop
  | [], [] => True
  | c :: cs, d :: ds => SameLetter c d ∧ SameWord cs ds
  | _, _ => False

/-- The state asked for. -/
def asked (enable : Bool) : Err := if enable then ENONE else EUSRBLOCKED

/-- A state that is not an internal error. -/
def Switchable (e : Err) : Prop := e = ENONE ∨ e = EUSRBLOCKED

/-- Everything works: the state can be read, the threads are stopped, and the routine runs. -/
def Visit.Works (v : Visit) : Prop := v.readable = true ∧ (v.env 0).hijacked = true ∧ (v.env 0).runErr = 0

/-- What can go wrong: reading, stopping threads, running the routine with one of the errors it can have. -/
def Visit.Real (v : Visit) : Prop :=
  ∀ i, (v.env i).runErr = 0 ∨ (v.env i).runErr = ETARGETHOOK ∨ (v.env i).runErr = EUNKNOWN ∨ (v.env i).runErr = ETIME ∨
    (v.env i).runErr = 2 ^ 32 - 1

end Verif.Switch
