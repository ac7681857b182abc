import Verif.Setup.Model

/-! What is expected of scripts/setup_package.sh. -/

namespace Verif.Setup.Spec

open Verif.Setup

/-- All libraries of all directories have been through. -/
def Finished (c : Conf) : Prop := c.dirs = [] ∧ c.todo = [] ∧ c.running = []

/-- A package as a repository lists it: no part is empty, and none has a blank or a semicolon. -/
structure Plain (p : Pack) : Prop where
  name : p.name ≠ []
  evr : p.evr ≠ []
  noBlank : 32 ∉ p.name ∧ 32 ∉ p.evr ∧ 32 ∉ p.arch
  noSemi : 59 ∉ p.name ∧ 59 ∉ p.evr ∧ 59 ∉ p.arch

/-- Its version is followed by its release, neither with a hyphen in it; the architecture has no dot. -/
structure Rpm (p : Pack) : Prop where
  evr : ∃ v r, p.evr = v ++ [45] ++ r ∧ 45 ∉ v ∧ 45 ∉ r
  arch : 46 ∉ p.arch ∧ 45 ∉ p.arch

/-- A word that is no option. -/
def Word (s : Str) : Prop := s.take 1 ≠ [45] ∧ s ≠ []

end Verif.Setup.Spec
