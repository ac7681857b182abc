import Verif.Flow.Spec
import Verif.Power.Spec

/-!
Which processes on POWER fit a description.  Descriptions, plans, orders and the user's notes are those of
`Verif.Flow.Spec`.
-/

namespace Verif.PowerFlow.Spec

open Verif.Dsc.Spec (Entry funcs)
open Verif.Flow.Spec (Plan Order Clear offsetOf)

/-- The process fits the description, as in `Verif.Flow.Spec`: the target's name is not that of the program; the target
is the first loaded object with that name in its path, and it has the symbol tables every library has; the functions to
be replaced are live-patchable functions `F`, `dlsym` finds the new ones where the container has them; the references
are in the places `slot` meant for them. -/
structure Suits (p : Plan) (F slot : Nat → Prop) : Prop where
  name : getBasename p.t.name ≠ p.prog
  before : ∀ o ∈ p.before, ¬ SymLoad.Mentions (getBasename p.t.name) o ∨ o.name = SymLoad.vdso
  target : getBasename p.target.name = getBasename p.t.name
  vdso : p.target.name ≠ SymLoad.vdso
  tables : SymLoad.HasTables p.target
  funcs : ∀ f ∈ funcs p.d.entries, Clear p.t f.1 ∧ offsetOf p.t f.1 ≠ 0 ∧ F (p.old f.1) ∧ p.old f.1 < 2 ^ 64 ∧
    p.w.newSym f.2 = p.new f.2 ∧ p.new f.2 < 2 ^ 64
  clear : ∀ tls tn rn, Entry.ref tls tn rn ∈ p.d.entries → Clear p.t tn ∧ Clear p.c rn
  links : ∀ l ∈ p.links, ∀ so, p.w.soBase = some so → p.slotAt so l < 2 ^ 64 ∧
    ∀ i, p.slotAt so l ≤ i → i < p.slotAt so l + l.size → slot i

/-- What a user may do. -/
def Ok (F slot : Nat → Prop) : Order → Prop
  | .apply p => p.Packable ∧ Suits p F slot
  | .revert p => p.Packable
  | .revertAll _ _ _ lib => 0 ∉ lib
  | .check id => id.length = 32
  | .toggle => True

end Verif.PowerFlow.Spec
