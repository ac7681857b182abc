import Verif.PowerUnload.Model
import Verif.Unload.Spec
import Verif.Power.Spec

/-! What a user of livepatching expects of a program on POWER that loads and unloads libraries. -/

namespace Verif.Power.Gone.Spec

open Verif.Unload (Event)
open Power.Spec (inPad Fits)

/-- Byte `i` is in the pad of a livepatchable function (from 52 bytes before it to its body) or in a slot for references. -/
def used (m : Mem) (F slot : Nat → Prop) (i : Nat) : Prop := (∃ f, F f ∧ inPad m f i) ∨ slot i

/-- The event leaves the livepatchable functions and the slots alone: requests fit, and the program
neither unmaps nor maps anything over a pad or a slot. -/
def Harmless (m : Mem) (F slot : Nat → Prop) : Event → Prop
  | .request r => Fits F slot r
  | .unmap lo hi => ∀ i, lo ≤ i → i < hi → ¬ used m F slot i
  | .load lo bytes => ∀ i, lo ≤ i → i < lo + bytes.length → ¬ used m F slot i

end Verif.Power.Gone.Spec
