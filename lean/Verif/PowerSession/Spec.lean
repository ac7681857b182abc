import Verif.PowerSession.Model
import Verif.Session.Spec
import Verif.Power.Spec

/-! What users of `ulp trigger` expect on POWER, in terms of results and of where calls go. -/

namespace Verif.Power.Run.Spec

open Verif.Runtime.Spec (Patch replacement)
open Verif.Power.Spec (callDest entryOff body Fits)
open Verif.Session (Try Session)
open Verif.Session.Spec (QFault.Ok Ran.Ok)

/-- In memory `m`, all calls of live-patchable functions go to the newest replacement in `ps`, or to the original. -/
def Follow (tm : List UInt8) (m₀ : Mem) (F : Nat → Prop) (m : Mem) (ps : List Patch) : Prop :=
  ∀ f, F f → callDest tm (entryOff m₀ f) m f = some ((replacement ps f).getD (body m₀ f))

/-- The requests fit the process; error codes are not 0; no single write of the queue fails. -/
structure TryOk (F slot : Nat → Prop) (t : Try) : Prop where
  before : ∀ r ∈ t.before, Fits F slot r
  runRevert : Ran.Ok t.runRevert
  queueRevert : QFault.Ok t.queueRevert
  seccomp : t.seccomp ≠ some 0
  noMem : t.noMem ≠ some 0
  runApply : Ran.Ok t.runApply
  queueApply : QFault.Ok t.queueApply

structure RunOk (F slot : Nat → Prop) (x : Session) : Prop where
  tries : ∀ i, TryOk F slot (x.env i)
  fits : ∀ m, x.patch = some m → ∀ i, Fits F slot (.apply (x.env i).world (.ok m))

end Verif.Power.Run.Spec
