import Verif.Runtime.Spec

/-! The versions of a function, in terms of the user's bookkeeping. -/

namespace Verif.Midway.Spec

open Runtime.Spec (Patch replacement)

/-- All replacements of `f` by applied patches, newest first. -/
def versions (ps : List Patch) (f : Nat) : List Nat :=
  ps.flatMap fun p => ((p.repl.filter (fun u => u.1 = f)).map (fun u => u.2)).reverse

/-- The two bytes of the entry of `f` are one instruction, as `ulp post` makes them (`C44_entry`). -/
def Merged (m : Mem) (f : Nat) : Prop := m.load (X86.Spec.body m f - 2) 2 = [0x66, 0x90]

/-- From one moment to the next, at most one version of `f` comes or goes. -/
def Gradual (f : Nat) : List (List Patch) → Prop
  | ps :: qs :: ms => ((versions ps f).length ≤ (versions qs f).length + 1 ∧
      (versions qs f).length ≤ (versions ps f).length + 1) ∧ Gradual f (qs :: ms)
  | _ => True

/-- At moment `ps`, `pc` is where calls of `f` go (`body`: the original). -/
def Current (body f pc : Nat) (ps : List Patch) : Prop := pc = (replacement ps f).getD body

end Verif.Midway.Spec
