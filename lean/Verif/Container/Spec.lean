import Verif.Container.Model
import Verif.Runtime.Spec

/-! What users expect of the code in containers. -/

namespace Verif.Container.Spec

open Verif.Runtime Verif.Runtime.Spec

/-- The request as libpulp sees it. -/
def request (p : Proc) : Act → Option Request
  | .apply d w m => some (.apply (worldOf (opened p d w m).1 w) m)
  | .other r => some r
  | .program _ _ => none

/-- Reachable processes: started with any objects, after any events; requests fit the image of the program
(`Verif.Runtime.Spec.Fits`). -/
inductive Reach (m₀ : Mem) (F slot : Nat → Prop) (fuel : Nat) : Proc → Prop
  | start (objs : List Obj) : (∀ o ∈ objs, o.pinned = false) → Reach m₀ F slot fuel ⟨State.init m₀, objs⟩
  | next {p p' : Proc} {a : Act} {r : Option Nat} : Reach m₀ F slot fuel p → (∀ q, request p a = some q → Fits m₀ F slot q) →
      step fuel p a = some (p', r) → Reach m₀ F slot fuel p'

/-- No object of that name, and none loaded from that file. -/
def Fresh (p : Proc) (d : Disk) (path : Str) : Prop :=
  ∀ o ∈ p.objs, path ∉ o.names ∧ ∀ f, d.file path = some f → o.file.inode ≠ f.inode

/-- The unit by which the patch replaces the function at `f`; the last one counts. -/
def Replaces (w : World) (m : Meta) (u : UnitM) (f : Nat) : Prop :=
  (m.units.filter fun v => w.oldSym (getBasename m.lib) v.oldName v.oldAddr = f).getLast? = some u

end Verif.Container.Spec
