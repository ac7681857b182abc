import Verif.Heap.Model

/-! What should be true of the memory. -/

namespace Verif.Heap

/-- A heap as an allocator keeps it: no block is handed out twice. -/
def Heap.Wf (h : Heap) : Prop := h.live.Nodup ∧ ∀ b ∈ h.live, b < h.next

/-- The blocks of an applied patch. -/
def Applied.blocks (a : Applied) : List Blk := [a.self, a.libName, a.containerName] ++ a.deps ++ a.units

/-- The heap `h'` is `h` with `extra` allocated beside. -/
def Plus (h h' : Heap) (extra : List Blk) : Prop := h'.live.Perm (extra ++ h.live)

/-- A patch applied and reverted. -/
def Cycle (h h' : Heap) : Prop :=
  ∃ sh roots budget budget' a h₁, applyRequest sh roots budget h = some (.applied a, h₁) ∧
    revertRequest a budget' h₁ = some (.reverted, h')

/-- `n` patches, one after the other. -/
inductive Cycles : Nat → Heap → Heap → Prop where
  | none (h : Heap) : Cycles 0 h h
  | more (n : Nat) (h h₁ h₂ : Heap) : Cycles n h h₁ → Cycle h₁ h₂ → Cycles (n + 1) h h₂

end Verif.Heap
