import Verif.Many.Spec
import Verif.PowerMany.Model
import Verif.PowerSession.Spec

/-! What users expect of `ulp trigger` with several live patches on POWER. -/

namespace Verif.Power.Run.Series.Spec

open Verif.Runtime (World Meta)
open Verif.Power.Run.Spec
open Verif.Many (Found Found.session)

/-- What the tool meets with each live patch is as it should be (see `TryOk`), and errors are not 0. -/
structure FoundOk (F slot : Nat → Prop) (f : Found) : Prop where
  early : f.early ≠ some 0
  session : ∀ lib retries, RunOk F slot (f.session lib retries)

/-- The live patch can be applied to the process: the library is there, with the functions that are replaced, and the writes it takes
(72 and 24 bytes of the queue for a function, up to 40 for a reference) fit the queue. -/
structure Suits (F : Nat → Prop) (w : World) (m : Meta) : Prop where
  type : m.type = 1
  idle : w.busy = false
  buildId : w.buildIdOk = true
  loads : w.dlopenOk = true
  units : ∀ u ∈ m.units, F (w.oldSym (getBasename m.lib) u.oldName u.oldAddr) ∧ w.newSym u.newName ≠ 0
  names : ∀ r ∈ m.refs, r.patchOff = 0 → w.newSym r.refName ≠ 0
  lib : w.libBase (getBasename m.lib) ≠ 0xff
  base : ∃ so, w.soBase = some so ∧ so ≠ 0
  small : 96 * m.units.length + 40 * m.refs.length ≤ InsnQueue.bufMax

/-- Nothing stands in the way of the live patch, other than that it is applied already or that it depends on others. -/
structure FoundSmooth (F : Nat → Prop) (f : Found) : Prop where
  early : f.early = none
  tries : ∀ i, Many.Spec.Try.Smooth (f.env i)
  suits : ∀ i, Suits F (f.env i).world f.patch

end Verif.Power.Run.Series.Spec
