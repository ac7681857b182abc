import Verif.Unload.Model
import Verif.Runtime.Spec

/-! What a user of livepatching expects of a program that loads and unloads libraries. -/

namespace Verif.Unload.Spec

open Verif.Runtime (Request Id Meta World)
open Verif.Runtime.Spec

/-- The requests among the events. -/
def requests : List Event → List Request
  | [] => []
  | .request r :: es => r :: requests es
  | _ :: es => requests es

/-- Byte `i` is in the pad of a livepatchable function or in a slot for references. -/
def used (m : Mem) (F slot : Nat → Prop) (i : Nat) : Prop := (∃ f, F f ∧ inPad m f i) ∨ slot i

/-- The event leaves the livepatchable functions and the slots alone: requests fit, and the program
neither unmaps nor maps anything over a pad or a slot. -/
def Harmless (m : Mem) (F slot : Nat → Prop) : Event → Prop
  | .request r => Fits m F slot r
  | .unmap lo hi => ∀ i, lo ≤ i → i < hi → ¬ used m F slot i
  | .load lo bytes => ∀ i, lo ≤ i → i < lo + bytes.length → ¬ used m F slot i

/-- The request to revert the patch `id`. -/
def IsRevert (id : Id) (w : World) (m : Meta) : Prop := m.type = 2 ∧ m.id = id ∧ w.busy = false

end Verif.Unload.Spec
