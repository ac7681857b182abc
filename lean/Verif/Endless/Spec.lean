import Verif.Endless.Model

/-! Lists in the memory of a process that lead back to where they were. -/

namespace Verif.Endless

open Verif.Inspect (Proc num wrap readMem readLinkMap)
open Verif.Ptrace (readString)

/-- Going from one thing to the next, any number of times. -/
inductive Reach (R : Nat → Nat → Prop) : Nat → Nat → Prop where
  | refl (a : Nat) : Reach R a a
  | step {a b c : Nat} : R a b → Reach R b c → Reach R a c

/-- From `a` one comes to something that leads back to itself. -/
def Circular (R : Nat → Nat → Prop) (a : Nat) : Prop := ∃ b c, Reach R a b ∧ R b c ∧ Reach R c b

/-- Of the process' memory nothing can be read from `top` on (programs have the lower half of the addresses). -/
def Bounded (p : Proc) (top : Nat) : Prop := top ≤ 2 ^ 63 ∧ ∀ a, top ≤ a → p.readable a = false

/-- There is a string at `a` that can be read. -/
def Named (p : Proc) (a : Nat) : Prop := ∃ fuel buf, readString p.readable p.mem a fuel = some (.ok buf)

/-- The entry of the link map at `a` can be read, with the name of its object; the next one is at `b`. -/
def NextObject (p : Proc) (a b : Nat) : Prop := a ≠ 0 ∧ ∃ l, readLinkMap p a = some l ∧ Named p l.name ∧ l.next = b

/-- The applied patch at `a` can be read; the next one is at `b`. -/
def NextPatch (p : Proc) (version a b : Nat) : Prop :=
  a ≠ 0 ∧ ∃ s, readMem p a (Status.patchSize version) = some s ∧ num s 56 8 = b

/-- The note at `a`, not that of the build id, can be read; by the lengths of its parts the next one, before `end_`, is
at `b`.  (The parts are rounded up as `parse_dynobj_elf_headers` does it.) -/
def NextNote (p : Proc) (end_ a b : Nat) : Prop :=
  ∃ s, readMem p a 12 = some s ∧ num s 8 4 ≠ 3 ∧
    b = wrap (a + (BuildId.toolAlign (num s 4 4) + BuildId.toolAlign (num s 0 4) + 12) % 2 ^ 32) ∧ b < end_

end Verif.Endless
