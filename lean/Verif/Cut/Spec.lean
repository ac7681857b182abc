import Verif.Cut.Model
import Verif.Runtime.Spec

/-! What is said about requests that are cut short. -/

namespace Verif.Cut.Spec

open Verif.Runtime

/-- A process between requests in which nothing went wrong so far and live patching is enabled. -/
structure Calm (p : Proc) : Prop where
  idle : Runtime.Spec.Idle p.st
  err : p.st.err = ENONE
  ref : p.ref = none
  free : p.stuck = false

/-- The same process, with the build id of the target matching and `dlopen` succeeding. -/
def accepting (v : Env) : Env := { v with w := { v.w with buildIdOk := true, dlopenOk := true } }

/-- A process that answers requests, being neither in the allocator nor in the loader. -/
def ready (v : Env) : Prop := v.w.busy = false

/-- The identifiers of the applied patches, newest first. -/
def applied (p : Proc) : List Id := p.st.patches.map fun a => a.id

/-- The thread is reading the description and has read its first `n` parts (type, identifier, container, library, then
units, dependencies, references). -/
def reading (m : Meta) (n : Nat) : Pc → Prop
  | .read todo => todo = (items m).drop n ∧ n ≤ (items m).length
  | _ => False

/-- The thread has read and checked everything and loaded the container, and not begun to apply or revert. -/
def loaded : Pc → Prop
  | .clean | .dispatch => True
  | _ => False

/-- The thread has put the patch into the list of applied ones, and not finished. -/
def applying : Pc → Prop
  | .count | .detour _ | .entry _ _ _ | .base | .refs _ _ => True
  | _ => False

/-- A request that is to change which patches are applied. -/
def asks : Event → Prop
  | .whole _ _ => True
  | .revertAll _ _ => True
  | _ => False

end Verif.Cut.Spec
