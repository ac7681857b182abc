import Verif.Kin.Model

/-!
# Words for the statements about processes and their memories
-/

namespace Verif.Kin

/-- Before any tool is at work: every process has a memory of its own. -/
structure Quiet (s : Sys) : Prop where
  noTool : ∀ i, s.tool i = none
  known : ∀ p m, s.proc p = some m → m < s.next
  apart : ∀ p q m, s.proc p = some m → s.proc q = some m → p = q

/-- A tool is at work in memory `m`: it holds a process that has this memory. -/
def AtWork (s : Sys) (i m : Nat) : Prop :=
  ∃ t, s.tool i = some t ∧ t.holds = true ∧ s.proc t.pid = some m

/-- The memory of process `p`. -/
def memOf (s : Sys) (p : Nat) : Option (Nat → UInt8) := (s.proc p).map fun m => (s.space m).mem

end Verif.Kin
