import Verif.Heap.Lemmas

/-! Memory of the metadata of live patches: no block is released twice or while not allocated, and what
is left behind. -/

namespace Verif.Heap

theorem start (h : Heap) (budget : Nat) (hw : h.Wf) : Inv h.live [] ⟨h, budget, {}⟩ :=
  ⟨by simp [Md.blocks], hw⟩

theorem inv_shift {B : List Blk} {b : Blk} {s : S} (h : Inv B [b] s) : Inv (b :: B) [] s := by
  refine ⟨h.perm.trans ?_, h.wf⟩
  rw [List.perm_iff_count]; intro a
  simp only [List.count_append, List.count_cons, List.count_nil]; omega

theorem parse_run (sh : Shape) (s : S) (B : List Blk) (h : Inv B [] s) (hm : s.md = {}) :
    (∃ s', parse sh s = (some (), s') ∧ Inv B [] s' ∧ Ends sh.ndeps s'.md ∧ s'.md.deps.length = sh.ndeps) ∨
    (∃ s' lost, parse sh s = (none, s') ∧ lost.length ≤ 3 ∧ Inv B lost s' ∧ Ends sh.ndeps s'.md) := by
  have ht := Triple.parse B sh s ⟨h, hm⟩
  rcases he : parse sh s with ⟨_ | ⟨⟩, s1⟩
  · obtain ⟨lost, h1, h2, h3⟩ := ht.2 s1 he
    exact Or.inr ⟨s1, lost, rfl, h1, h2, h3⟩
  · obtain ⟨h1, h2, h3⟩ := ht.1 () s1 he
    exact Or.inl ⟨s1, rfl, h1, ends_of h2 (Nat.le_of_eq h3), h3⟩

theorem free_lib {B lost : List Blk} {nd : Nat} {s : S} (h : Inv B lost s) (he : Ends nd s.md) :
    ∃ h', s.heap.freeAll (freedByLib s.md) = some h' ∧ h'.live.Perm (lost ++ s.md.deps ++ B) ∧ h'.Wf := by
  refine freeAll_perm h.wf (h.perm.trans ?_)
  have h1 := (List.perm_iff_count.mp (freedByLib_perm he))
  rw [List.perm_iff_count]; intro a
  have := h1 a
  simp only [List.count_append] at this ⊢; omega

theorem free_tool {B lost : List Blk} {nd : Nat} {s : S} (h : Inv B lost s) (he : Ends nd s.md) :
    ∃ h', s.heap.freeAll (freedByTool s.md) = some h' ∧ h'.live.Perm (lost ++ B) ∧ h'.Wf := by
  refine freeAll_perm h.wf (h.perm.trans ?_)
  have h1 := (List.perm_iff_count.mp (freedByTool_perm he))
  rw [List.perm_iff_count]; intro a
  have := h1 a
  simp only [List.count_append] at this ⊢; omega

/-- All that can become of a request to apply a patch. -/
theorem applyRequest_run (sh : Shape) (roots budget : Nat) (h : Heap) (hw : h.Wf) :
    ∃ o h', applyRequest sh roots budget h = some (o, h') ∧ h'.Wf ∧
      ((o = .refused ∧ budget = 0 ∧ h' = h) ∨
       (o = .refused ∧ ∃ leaked, leaked ≠ [] ∧ Plus h h' leaked) ∨
       (o = .exited) ∨
       (∃ a leaked detours, o = .applied a ∧ Plus h h' (leaked ++ a.blocks ++ detours) ∧
          leaked.length = 1 + sh.ndeps ∧ detours.length = sh.units + roots ∧
          a.deps.length = sh.deps ∧ a.units.length = sh.units)) := by
  unfold applyRequest
  cases budget with
  | zero => exact ⟨.refused, h, rfl, hw, Or.inl ⟨rfl, rfl, rfl⟩⟩
  | succ n =>
    rcases calloc_run _ _ _ (start h (n + 1) hw) with ⟨b, s1, e1, i1, m1⟩ | ⟨s1, e1, -, -⟩
    case inr => exact absurd e1 (by simp [calloc])
    simp only [e1]
    have i1 := inv_shift i1
    rcases parse_run sh s1 _ i1 m1 with ⟨s2, e2, i2, n2, d2⟩ | ⟨s2, lost, e2, -, i2, n2⟩
    case inr =>
      simp only [e2]
      obtain ⟨h', f1, f2, f3⟩ := free_lib i2 n2
      rw [f1]
      exact ⟨_, _, rfl, f3, Or.inr (Or.inl ⟨rfl, lost ++ s2.md.deps ++ [b], by simp, by
        unfold Plus; simpa using f2⟩)⟩
    simp only [e2]
    rcases stateUpdate_run sh s2 _ i2 with ⟨a, s3, e3, i3, m3, l1, l2⟩ | ⟨lost, s3, e3, i3, m3⟩
    case inr =>
      simp only [e3]
      obtain ⟨h', f1, f2, f3⟩ := free_lib i3 (m3 ▸ n2)
      rw [f1]
      exact ⟨_, _, rfl, f3, Or.inr (Or.inl ⟨rfl, lost ++ s3.md.deps ++ [b], by simp, by
        unfold Plus; simpa using f2⟩)⟩
    simp only [e3, applyUnits]
    rcases callocs_run (sh.units + roots) s3 _ _ i3 with ⟨ds, s4, e4, l4, i4, m4⟩ | ⟨ds, s4, e4, i4, m4⟩
    case inr =>
      rw [bind_none e4]
      exact ⟨_, _, rfl, i4.wf, Or.inr (Or.inr (Or.inl rfl))⟩
    rw [bind_some e4]
    obtain ⟨h', f1, f2, f3⟩ := free_lib i4 (m4 ▸ m3 ▸ n2)
    simp only [pure, Pure.pure]
    rw [f1]
    refine ⟨_, _, rfl, f3, Or.inr (Or.inr (Or.inr ⟨a, b :: s4.md.deps, ds, rfl, ?_, ?_, l4, l1, l2⟩))⟩
    · unfold Plus
      refine f2.trans ?_
      rw [List.perm_iff_count]; intro x
      simp only [List.count_append, List.count_cons]; omega
    · rw [m4, m3]; simp only [List.length_cons, d2]; omega

/-- All that can become of a request to revert patch `a`. -/
theorem revertRequest_run (a : Applied) (budget : Nat) (h : Heap) (hw : h.Wf) (rest : List Blk)
    (ha : h.live.Perm (a.blocks ++ rest)) :
    ∃ o h', revertRequest a budget h = some (o, h') ∧ h'.Wf ∧
      ((o = .refused ∧ ∃ leaked, Plus h h' leaked) ∨
       (o = .reverted ∧ ∃ ulp, h'.live.Perm ([ulp, a.containerName] ++ rest))) := by
  unfold revertRequest
  rcases calloc_run _ _ _ (start h budget hw) with ⟨b, s1, e1, i1, m1⟩ | ⟨s1, e1, i1, m1⟩
  case inr =>
    simp only [e1]
    refine ⟨_, _, rfl, i1.wf, Or.inl ⟨rfl, [], ?_⟩⟩
    have := i1.perm
    rw [m1] at this
    simpa [Plus, Md.blocks] using this
  simp only [e1]
  have i1 := inv_shift i1
  rcases parse_run ⟨true, 0, 0, 0⟩ s1 _ i1 m1 with ⟨s2, e2, i2, n2, d2⟩ | ⟨s2, lost, e2, -, i2, n2⟩
  case inr =>
    simp only [e2]
    obtain ⟨h', f1, f2, f3⟩ := free_lib i2 n2
    rw [f1]
    exact ⟨_, _, rfl, f3, Or.inl ⟨rfl, lost ++ s2.md.deps ++ [b], by
      unfold Plus; simpa using f2⟩⟩
  simp only [e2]
  have hd : s2.md.deps = [] := List.length_eq_zero_iff.mp (by rw [d2]; rfl)
  have hp : s2.heap.live.Perm (freedByRemove a ++ (s2.md.blocks ++ [b, a.containerName] ++ rest)) := by
    refine i2.perm.trans ?_
    rw [List.perm_iff_count]; intro x
    have := List.perm_iff_count.mp ha x
    simp only [Applied.blocks, freedByRemove, List.count_append, List.count_cons, List.count_nil] at this ⊢
    omega
  obtain ⟨h1, g1, g2, g3⟩ := freeAll_perm i2.wf hp
  rw [g1]
  have hp2 : h1.live.Perm (freedByLib s2.md ++ ([b, a.containerName] ++ rest)) := by
    refine g2.trans ?_
    rw [List.perm_iff_count]; intro x
    have := List.perm_iff_count.mp (freedByLib_perm n2) x
    simp only [hd, List.count_append, List.count_nil] at this ⊢
    omega
  obtain ⟨h2, k1, k2, k3⟩ := freeAll_perm g3 hp2
  simp only [k1]
  exact ⟨_, _, rfl, k3, Or.inr ⟨rfl, b, k2⟩⟩

/-! ### C108: releasing metadata -/

/-- **C108, the patched process.** Wherever the reading of the metadata stops, and whatever the request
comes to, a request to apply a patch releases only blocks that are allocated, each once. -/
theorem C108_apply (sh : Shape) (roots budget : Nat) (h : Heap) (hw : h.Wf) :
    ∃ o h', applyRequest sh roots budget h = some (o, h') ∧ h'.Wf := by
  obtain ⟨o, h', h1, h2, -⟩ := applyRequest_run sh roots budget h hw
  exact ⟨o, h', h1, h2⟩

/-- **C108, reverting.** The same of a request to revert a patch that is applied. -/
theorem C108_revert (a : Applied) (budget : Nat) (h : Heap) (hw : h.Wf) (rest : List Blk)
    (ha : h.live.Perm (a.blocks ++ rest)) :
    ∃ o h', revertRequest a budget h = some (o, h') ∧ h'.Wf := by
  obtain ⟨o, h', h1, h2, -⟩ := revertRequest_run a budget h hw rest ha
  exact ⟨o, h', h1, h2⟩

/-- **C108, the tools.** A command that reads metadata releases only blocks that are allocated, each
once; when the reading stops early at most three blocks stay. -/
theorem C108_tool (sh : Shape) (budget : Nat) (h : Heap) (hw : h.Wf) :
    ∃ h' lost, toolRound sh budget h = some h' ∧ h'.Wf ∧ Plus h h' lost ∧ lost.length ≤ 3 := by
  unfold toolRound
  rcases parse_run sh _ _ (start h budget hw) rfl with ⟨s1, e1, i1, n1, -⟩ | ⟨s1, lost, e1, l1, i1, n1⟩
  · simp only [e1]
    obtain ⟨h', f1, f2, f3⟩ := free_tool i1 n1
    exact ⟨h', [], f1, f3, f2, by simp⟩
  · simp only [e1]
    obtain ⟨h', f1, f2, f3⟩ := free_tool i1 n1
    exact ⟨h', lost, f1, f3, f2, l1⟩

/-- The reading of the metadata completes. -/
def Completes (sh : Shape) (budget : Nat) (h : Heap) : Prop := ((parse sh ⟨h, budget, {}⟩).1).isSome = true

/-- **C109, the tools.** A command that reads metadata to the end leaves nothing behind. -/
theorem C109_tool (sh : Shape) (budget : Nat) (h : Heap) (hw : h.Wf) (hc : Completes sh budget h) :
    ∃ h', toolRound sh budget h = some h' ∧ h'.live.Perm h.live := by
  unfold toolRound
  rcases parse_run sh _ _ (start h budget hw) rfl with ⟨s1, e1, i1, n1, -⟩ | ⟨s1, lost, e1, -, -, -⟩
  · simp only [e1]
    obtain ⟨h', f1, f2, -⟩ := free_tool i1 n1
    exact ⟨h', f1, by simpa using f2⟩
  · unfold Completes at hc
    rw [e1] at hc
    simp at hc

/-! ### C109: memory left behind by a request -/

/-- **C109 is false of the code.** A request that is refused, other than for want of memory for the
structure, leaves at least one block behind. -/
theorem C109_refused_leaks (sh : Shape) (roots budget : Nat) (h h' : Heap) (hw : h.Wf) (hb : budget ≠ 0)
    (hr : applyRequest sh roots budget h = some (.refused, h')) :
    ∃ leaked, leaked ≠ [] ∧ Plus h h' leaked := by
  obtain ⟨o, h1, e1, -, hc⟩ := applyRequest_run sh roots budget h hw
  rw [hr] at e1
  simp only [Option.some.injEq, Prod.mk.injEq] at e1
  obtain ⟨rfl, rfl⟩ := e1
  rcases hc with ⟨-, h0, -⟩ | ⟨-, hl⟩ | h0 | ⟨a, _, _, h0, -⟩
  · exact absurd h0 hb
  · exact hl
  · exact absurd h0 (by simp)
  · exact absurd h0 (by simp)

/-- **C109, what is left.** A request that is granted leaves the record of the patch, a detour for each
unit, the roots, and beside them one block for the metadata and one for each dependency. -/
theorem C109_apply_partial (sh : Shape) (roots budget : Nat) (h h' : Heap) (a : Applied) (hw : h.Wf)
    (hs : sh.revert = false) (hr : applyRequest sh roots budget h = some (.applied a, h')) :
    ∃ leaked detours, Plus h h' (leaked ++ a.blocks ++ detours) ∧ leaked.length = 1 + sh.deps ∧
      detours.length = sh.units + roots ∧ a.deps.length = sh.deps ∧ a.units.length = sh.units := by
  obtain ⟨o, h1, e1, -, hc⟩ := applyRequest_run sh roots budget h hw
  rw [hr] at e1
  simp only [Option.some.injEq, Prod.mk.injEq] at e1
  obtain ⟨rfl, rfl⟩ := e1
  rcases hc with ⟨h0, -⟩ | ⟨h0, -⟩ | h0 | ⟨a', l, d, h0, h1, h2, h3⟩
  · exact absurd h0 (by simp)
  · exact absurd h0 (by simp)
  · exact absurd h0 (by simp)
  · simp only [Outcome.applied.injEq] at h0
    subst h0
    exact ⟨l, d, h1, by simpa [Shape.ndeps, hs] using h2, h3⟩

/-! ### C110: applying and reverting -/

/-- **C110, what is left.** After a patch was applied and reverted, the heap has exactly
`3 + dependencies + units + roots` blocks more. -/
theorem C110_exact_partial (sh : Shape) (roots budget budget' : Nat) (h h₁ h' : Heap) (a : Applied) (hw : h.Wf)
    (hs : sh.revert = false) (ha : applyRequest sh roots budget h = some (.applied a, h₁))
    (hr : revertRequest a budget' h₁ = some (.reverted, h')) :
    ∃ extra, Plus h h' extra ∧ extra.length = 3 + sh.deps + sh.units + roots := by
  obtain ⟨l, d, p, hl, hd, -⟩ := C109_apply_partial sh roots budget h h₁ a hw hs ha
  obtain ⟨o, hw1⟩ := C108_apply sh roots budget h hw
  obtain ⟨h2, e2, hw1⟩ := hw1
  rw [ha] at e2
  simp only [Option.some.injEq, Prod.mk.injEq] at e2
  obtain ⟨-, rfl⟩ := e2
  have hp : h₁.live.Perm (a.blocks ++ (l ++ d ++ h.live)) := by
    refine List.Perm.trans p ?_
    rw [List.perm_iff_count]; intro x
    simp only [List.count_append]; omega
  obtain ⟨o, h2, e2, -, hc⟩ := revertRequest_run a budget' h₁ hw1 _ hp
  rw [hr] at e2
  simp only [Option.some.injEq, Prod.mk.injEq] at e2
  obtain ⟨rfl, rfl⟩ := e2
  rcases hc with ⟨h0, -⟩ | ⟨-, ulp, hq⟩
  · exact absurd h0 (by simp)
  · refine ⟨[ulp, a.containerName] ++ l ++ d, ?_, ?_⟩
    · unfold Plus; simpa using hq
    · simp only [List.length_append, List.length_cons, List.length_nil]; omega

theorem cycle_wf {h h' : Heap} (hw : h.Wf) (hc : Cycle h h') : h'.Wf ∧ h.live.length + 3 ≤ h'.live.length := by
  obtain ⟨sh, roots, b, b', a, h₁, e1, e2⟩ := hc
  obtain ⟨o, h2, e3, hw1, hc⟩ := applyRequest_run sh roots b h hw
  rw [e1] at e3
  simp only [Option.some.injEq, Prod.mk.injEq] at e3
  obtain ⟨rfl, rfl⟩ := e3
  rcases hc with ⟨h0, -⟩ | ⟨h0, -⟩ | h0 | ⟨a', l, d, h0, p, hl, -⟩
  · exact absurd h0 (by simp)
  · exact absurd h0 (by simp)
  · exact absurd h0 (by simp)
  simp only [Outcome.applied.injEq] at h0
  subst h0
  have hp : h₁.live.Perm (a.blocks ++ (l ++ d ++ h.live)) := by
    refine List.Perm.trans p ?_
    rw [List.perm_iff_count]; intro x
    simp only [List.count_append]; omega
  obtain ⟨o, h2, e4, hw2, hc⟩ := revertRequest_run a b' h₁ hw1 _ hp
  rw [e2] at e4
  simp only [Option.some.injEq, Prod.mk.injEq] at e4
  obtain ⟨rfl, rfl⟩ := e4
  refine ⟨hw2, ?_⟩
  rcases hc with ⟨h0, -⟩ | ⟨-, ulp, hq⟩
  · exact absurd h0 (by simp)
  · have := hq.length_eq
    simp only [List.length_append, List.length_cons, List.length_nil] at this
    omega

/-- **C110 is false of the code.** However many patches are applied and reverted, each leaves at least
three blocks behind: the memory of the process grows without bound. -/
theorem C110_grows (n : Nat) (h h' : Heap) (hw : h.Wf) (hc : Cycles n h h') :
    h.live.length + 3 * n ≤ h'.live.length := by
  have : h'.Wf ∧ h.live.length + 3 * n ≤ h'.live.length := by
    induction hc with
    | none => exact ⟨hw, by omega⟩
    | more n h h₁ h₂ _ h2 ih =>
      obtain ⟨i1, i2⟩ := ih hw
      obtain ⟨c1, c2⟩ := cycle_wf i1 h2
      exact ⟨c1, by omega⟩
  exact this.2

/-! ### Cases -/

/-- A patch with two units, one dependency and one reference, on a heap that is in use. -/
def exShape : Shape := ⟨false, 2, 1, 1⟩
def exHeap : Heap := ⟨[4, 2], 7⟩

example : exHeap.Wf := by unfold Heap.Wf exHeap; simp

/-- All is granted; and reverting works. -/
example : (match applyRequest exShape 2 1000 exHeap with
    | some (.applied a, h) => (match revertRequest a 1000 h with
      | some (.reverted, h') => h'.live.length == 2 + 3 + 1 + 2 + 2
      | _ => false)
    | _ => false) = true := by decide +kernel

/-- The reading stops within the second unit: two blocks lost and the structure. -/
example : ((applyRequest exShape 2 20 exHeap).map fun r => (r.1, decide (r.2.live.length > 2))) =
    some (.refused, true) := by decide +kernel

example : Completes exShape 1000 exHeap := by unfold Completes; decide +kernel

/-- A cycle exists, so the claim about many is not empty. -/
example : ∃ h', Cycle exHeap h' := by
  have : ∃ a h₁ h', applyRequest exShape 2 1000 exHeap = some (.applied a, h₁) ∧
      revertRequest a 1000 h₁ = some (.reverted, h') := by
    refine ⟨(match applyRequest exShape 2 1000 exHeap with
      | some (.applied a, _) => a
      | _ => ⟨0, 0, 0, [], []⟩), (match applyRequest exShape 2 1000 exHeap with
      | some (_, h) => h
      | _ => exHeap), (match applyRequest exShape 2 1000 exHeap with
      | some (.applied a, h) => (match revertRequest a 1000 h with
        | some (_, h') => h'
        | _ => exHeap)
      | _ => exHeap), ?_, ?_⟩ <;> decide +kernel
  obtain ⟨a, h₁, h', h1, h2⟩ := this
  exact ⟨h', _, _, _, _, a, h₁, h1, h2⟩

theorem exHeap_wf : exHeap.Wf := by unfold Heap.Wf exHeap; simp

theorem ex_cycle : ∃ a h₁ h', applyRequest exShape 2 1000 exHeap = some (.applied a, h₁) ∧
    revertRequest a 1000 h₁ = some (.reverted, h') := by
  refine ⟨(match applyRequest exShape 2 1000 exHeap with
    | some (.applied a, _) => a
    | _ => ⟨0, 0, 0, [], []⟩), (match applyRequest exShape 2 1000 exHeap with
    | some (_, h) => h
    | _ => exHeap), (match applyRequest exShape 2 1000 exHeap with
    | some (.applied a, h) => (match revertRequest a 1000 h with
      | some (_, h') => h'
      | _ => exHeap)
    | _ => exHeap), ?_, ?_⟩ <;> decide +kernel

theorem ex_refused : ∃ h', applyRequest exShape 2 20 exHeap = some (.refused, h') :=
  ⟨((applyRequest exShape 2 20 exHeap).map (·.2)).getD exHeap, by decide +kernel⟩

example := C108_apply exShape 2 20 exHeap exHeap_wf
example := C108_revert ⟨4, 2, 6, [8], [9, 10]⟩ 20 ⟨[4, 2, 6, 8, 9, 10, 3], 11⟩ (by unfold Heap.Wf; simp) [3] (List.Perm.refl _)
example := C108_tool exShape 20 exHeap exHeap_wf
example : ∃ h' leaked, leaked ≠ [] ∧ Plus exHeap h' leaked := by
  obtain ⟨h', hr⟩ := ex_refused
  exact ⟨h', C109_refused_leaks exShape 2 20 exHeap h' exHeap_wf (by decide) hr⟩
example : ∃ h' leaked, Plus exHeap h' leaked ∧ 4 ≤ leaked.length := by
  obtain ⟨a, h₁, _, h, _⟩ := ex_cycle
  obtain ⟨l, d, h1, h2, h3, -, -⟩ := C109_apply_partial exShape 2 1000 exHeap h₁ a exHeap_wf rfl h
  exact ⟨h₁, _, h1, by simp only [List.length_append, h2, h3]; simp [exShape]⟩
example := C109_tool exShape 1000 exHeap exHeap_wf (by unfold Completes; decide +kernel)
example : ∃ h', Cycles 1 exHeap h' ∧ exHeap.live.length + 3 * 1 ≤ h'.live.length := by
  obtain ⟨a, h₁, h', h1, h2⟩ := ex_cycle
  have hc := Cycles.more 0 _ _ _ (.none exHeap) ⟨_, _, _, _, a, h₁, h1, h2⟩
  exact ⟨h', hc, C110_grows 1 _ _ exHeap_wf hc⟩
example : ∃ h' extra, Plus exHeap h' extra ∧ extra.length = 8 := by
  obtain ⟨a, h₁, h', h1, h2⟩ := ex_cycle
  exact ⟨h', C110_exact_partial exShape 2 1000 1000 exHeap h₁ h' a exHeap_wf rfl h1 h2⟩

end Verif.Heap
