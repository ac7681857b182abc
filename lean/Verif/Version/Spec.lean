import Verif.Version.Model
import Verif.Ptrace.Props

/-! Texts of versions. -/

namespace Verif.Version

open Verif.Inspect (Proc)

/-- The text of a version. -/
def text (a b c : Nat) : Str := Text.printDec a ++ [46] ++ Text.printDec b ++ [46] ++ Text.printDec c

/-- At `a` there is that text. -/
def Has (p : Proc) (a : Nat) (s : Str) : Prop := Ptrace.HoldsString p.mem a s

/-- The 8 bytes at `a + 8 * k` can be read. -/
def WordReadable (p : Proc) (a k : Nat) : Prop := ∀ i, i < 8 → p.readable (a + 8 * k + i) = true

/-- The text ends within 32 bytes, and the words up to its end can be read. -/
def Fits (p : Proc) (a : Nat) : Prop := ∃ n, n < 32 ∧ p.mem (a + n) = 0 ∧ ∀ k, k ≤ n / 8 → WordReadable p a k

end Verif.Version
