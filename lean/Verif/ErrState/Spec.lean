import Verif.Base.Err
import Verif.Base.Str

/-! What the patterns of the environment variables are, and when one matches. -/

namespace Verif.ErrState.Spec

/-- `t` is one of the patterns of a text: a non-empty piece without colon, between colons or the ends of the text. -/
def IsToken (t s : Str) : Prop :=
  t ≠ [] ∧ (58 : UInt8) ∉ t ∧ ∃ pre post, s = pre ++ t ++ post ∧ (pre = [] ∨ pre.getLast? = some 58)
    ∧ (post = [] ∨ post.head? = some 58)

/-- Value of decimal digits. -/
def decVal : Str → Nat
  | [] => 0
  | c :: cs => (c.toNat - 48) * 10 ^ cs.length + decVal cs

/-- A pattern that is the number `id`. -/
def IsId (w : Str) (id : Nat) : Prop := w ≠ [] ∧ (∀ c ∈ w, 48 ≤ c ∧ c ≤ 57) ∧ decVal w = id

/-- Some pattern of the variable matches a user or group: it is its number, or it matches its name. -/
def IdListed (fnmatch : Str → Str → Bool) (var : Option Str) (id : Nat) (name : Option Str) : Prop :=
  ∃ v, var = some v ∧ ∃ w, IsToken w v ∧ (IsId w id ∨ ∃ n, name = some n ∧ fnmatch w n = true)

/-- Some pattern of the variable matches the path. -/
def PathListed (fnmatch : Str → Str → Bool) (var : Option Str) (path : Str) : Prop :=
  ∃ v, var = some v ∧ ∃ w, IsToken w v ∧ fnmatch w path = true

end Verif.ErrState.Spec
