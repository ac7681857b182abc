import Verif.StackCheck.Model

namespace Verif.StackCheck.Spec

/-- Value of lower case hexadecimal digits. -/
def hexOf (s : Str) : Option Nat := s.foldl (fun v c => match v, "0123456789abcdef".toUTF8.toList.idxOf? c with
  | some v, some d => some (16 * v + d)
  | _, _ => none) (some 0)

/-- A mapping: from `lo` up to and not including `hi`, and its line in `/proc/<pid>/maps`. -/
structure Region where
  lo : Nat
  hi : Nat
  line : Str
deriving Inhabited

/-- As the kernel writes it: `lo-hi` in hexadecimal with any number of leading zeros, then a space and permissions, offset, device, inode, path. -/
def Region.Valid (r : Region) : Prop :=
  r.lo < r.hi ∧ r.hi < 2 ^ 64 ∧ ∃ a b rest, a ≠ [] ∧ b ≠ [] ∧ hexOf a = some r.lo ∧ hexOf b = some r.hi ∧ r.line = a ++ 45 :: (b ++ 32 :: rest)

/-- Its line has the library's name in it. -/
def Region.Named (library : Str) (r : Region) : Prop := library <:+: r.line

/-- Program counters of a thread. -/
def pcs : Walk → List Nat
  | .done => []
  | .fail => []
  | .frame pc w => pc :: pcs w

/-- The whole stack could be walked. -/
def Whole : Walk → Prop
  | .done => True
  | .fail => False
  | .frame _ w => Whole w

end Verif.StackCheck.Spec
