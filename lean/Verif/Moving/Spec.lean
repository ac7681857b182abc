import Verif.Moving.Model

namespace Verif.Moving.Spec

/-- A chain of elements from a pointer to a pointer. -/
def Seg (mem : Nat → Option Node) : Nat → List Nat → Nat → Prop
  | a, [], z => a = z
  | a, b :: l, z => a = b ∧ ∃ nd, mem b = some nd ∧ Seg mem nd.next l z

/-- The list of a process is one: from its first element to NULL, without an element twice. -/
structure Sound (p : Proc) (main : Nat) : Prop where
  chain : Seg p.mem main p.list 0
  nodup : p.list.Nodup
  nonnull : 0 ∉ p.list
  nonempty : p.list ≠ []

/-- The name of what is loaded at an address. -/
def nameAt (p : Proc) (a : Nat) : Str := ((p.mem a).map Node.name).getD []

end Verif.Moving.Spec
