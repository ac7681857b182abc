import Verif.Runtime.Spec

/-! References of a livepatch, and what they are to hold. -/

namespace Verif.Refs.Spec

open Verif.Runtime (World RefM)
open Verif.Runtime.Spec (refAddr refSize)

/-- References that do not overlap. -/
def Apart (w : World) (so : Nat) (refs : List RefM) : Prop :=
  refs.Pairwise fun a b => refAddr w so a + refSize a ≤ refAddr w so b ∨ refAddr w so b + refSize b ≤ refAddr w so a

/-- The reference is to the variable: to its address or, if it is thread-local, by the number of its module and its offset
there (less what the architecture's `__tls_get_addr` adds, `dtv`). -/
def Right (dtv base idx : Nat) (m : Mem) (p : Nat) (r : RefM) : Prop :=
  if r.tls then leVal (m.load p 8) = idx % 2 ^ 64 ∧ leVal (m.load (p + 8) 8) = (r.targetOff + (2 ^ 64 - dtv)) % 2 ^ 64
  else leVal (m.load p 8) = (base + r.targetOff) % 2 ^ 64

end Verif.Refs.Spec
