import Verif.Heap.Spec

namespace Verif.Heap

theorem freeAll_perm' {h : Heap} {bs rest : List Blk} (hn : h.live.Nodup) (hp : h.live.Perm (bs ++ rest)) :
    ∃ h', h.freeAll bs = some h' ∧ h'.live.Perm rest ∧ h'.live.Nodup ∧ h'.next = h.next := by
  induction bs generalizing h with
  | nil => exact ⟨h, rfl, by simpa using hp, hn, rfl⟩
  | cons b bs ih =>
    have hb : b ∈ h.live := hp.symm.subset (by simp)
    have h1 : h.free b = some { h with live := h.live.erase b } := by
      unfold Heap.free; rw [if_pos hb]
    have h2 : (h.live.erase b).Perm (bs ++ rest) := by
      have := hp.erase b
      simpa using this
    obtain ⟨h', e1, e2, e3, e4⟩ := ih (h := { h with live := h.live.erase b }) (hn.erase b) h2
    refine ⟨h', ?_, e2, e3, e4⟩
    rw [Heap.freeAll, h1]; exact e1

theorem freeAll_perm {h : Heap} {bs rest : List Blk} (hw : h.Wf) (hp : h.live.Perm (bs ++ rest)) :
    ∃ h', h.freeAll bs = some h' ∧ h'.live.Perm rest ∧ h'.Wf := by
  obtain ⟨h', h1, h2, h3, h4⟩ := freeAll_perm' hw.1 hp
  refine ⟨h', h1, h2, h3, fun b hb => ?_⟩
  rw [h4]
  exact hw.2 b (hp.symm.subset (by simp [h2.subset hb]))

/-- All blocks that metadata refers to. -/
def Md.blocks (m : Md) : List Blk :=
  m.soFilename.toList ++ m.obj.toList ++ m.buildId.toList ++ m.name.toList ++
    m.units.flatMap (fun u => [u.old, u.new, u.self]) ++ m.deps ++
    m.refs.flatMap (fun r => [r.target, r.reference, r.self])

/-- The heap is what it was (`B`), what the metadata refers to, and what was lost. -/
structure Inv (B lost : List Blk) (s : S) : Prop where
  perm : s.heap.live.Perm (lost ++ s.md.blocks ++ B)
  wf : s.heap.Wf

/-- Code that goes from `P` to `Q`, or stops with `E`. -/
def Triple {α} (P : S → Prop) (m : M α) (Q : α → S → Prop) (E : S → Prop) : Prop :=
  ∀ s, P s → (∀ a s', m s = (some a, s') → Q a s') ∧ (∀ s', m s = (none, s') → E s')

theorem Triple.pure {α} {a : α} {Q : α → S → Prop} {E} : Triple (Q a) (pure a : M α) Q E := by
  intro s h
  constructor
  · intro a' s' he
    simp only [Pure.pure, Prod.mk.injEq, Option.some.injEq] at he
    rw [← he.1, ← he.2]; exact h
  · intro s' he; simp [Pure.pure] at he

theorem Triple.bind {α β} {m : M α} {f : α → M β} {P : S → Prop} {Q : α → S → Prop} {R : β → S → Prop}
    {E : S → Prop} (h1 : Triple P m Q E) (h2 : ∀ a, Triple (Q a) (f a) R E) : Triple P (m >>= f) R E := by
  intro s h
  have h1' := h1 s h
  have hd : (m >>= f) s = (match m s with
    | (none, s) => (none, s)
    | (some a, s) => f a s) := rfl
  rw [hd]
  rcases hm : m s with ⟨_ | a, s1⟩
  · constructor
    · intro a s' he; simp at he
    · intro s' he
      simp at he
      rw [← he]; exact h1'.2 s1 hm
  · exact h2 a s1 (h1'.1 a s1 hm)

theorem Triple.weaken {α} {m : M α} {P P' : S → Prop} {Q Q' : α → S → Prop} {E E' : S → Prop}
    (h : Triple P m Q E) (hp : ∀ s, P' s → P s) (hq : ∀ a s, Q a s → Q' a s) (he : ∀ s, E s → E' s) :
    Triple P' m Q' E' := by
  intro s hs
  obtain ⟨h1, h2⟩ := h s (hp s hs)
  exact ⟨fun a s' e => hq a s' (h1 a s' e), fun s' e => he s' (h2 s' e)⟩

/-- A condition on heap and metadata only. -/
def NoBudget (P : S → Prop) : Prop := ∀ s n, P s → P { s with budget := n }

theorem Triple.step {P : S → Prop} {E : S → Prop} (hb : NoBudget P) (he : ∀ s, P s → E s) :
    Triple P step (fun _ => P) E := by
  intro s h
  unfold Verif.Heap.step
  cases hn : s.budget with
  | zero =>
    constructor
    · intro a s' e; simp at e
    · intro s' e; simp at e; rw [← e]; exact he s h
  | succ n =>
    constructor
    · intro a s' e; simp at e; rw [← e]; exact hb s n h
    · intro s' e; simp at e

theorem Triple.calloc {B lost : List Blk} {R : Md → Prop} {E : S → Prop}
    (he : ∀ s, Inv B lost s ∧ R s.md → E s) :
    Triple (fun s => Inv B lost s ∧ R s.md) calloc (fun b s => Inv B (b :: lost) s ∧ R s.md) E := by
  intro s h
  unfold Verif.Heap.calloc
  cases hn : s.budget with
  | zero =>
    constructor
    · intro a s' e; simp at e
    · intro s' e; simp at e; rw [← e]; exact he s h
  | succ n =>
    constructor
    · intro a s' e
      simp only [Prod.mk.injEq, Option.some.injEq] at e
      obtain ⟨rfl, rfl⟩ := e
      refine ⟨⟨?_, ?_⟩, h.2⟩
      · simpa using h.1.perm
      · obtain ⟨w1, w2⟩ := h.1.wf
        refine ⟨List.nodup_cons.mpr ⟨fun hm => ?_, w1⟩, ?_⟩
        · exact Nat.lt_irrefl _ (w2 _ hm)
        · intro b hb
          simp only [List.mem_cons] at hb
          rcases hb with rfl | hb
          · exact Nat.lt_succ_self _
          · exact Nat.lt_succ_of_lt (w2 b hb)
    · intro s' e; simp at e

theorem Triple.set {B lost lost' : List Blk} {R R' : Md → Prop} {E : S → Prop} {f : Md → Md}
    (hf : ∀ m, R m → (lost ++ m.blocks).Perm (lost' ++ (f m).blocks) ∧ R' (f m)) :
    Triple (fun s => Inv B lost s ∧ R s.md) (set f) (fun _ s => Inv B lost' s ∧ R' s.md) E := by
  intro s h
  constructor
  · intro a s' e
    simp only [Verif.Heap.set, Prod.mk.injEq, Option.some.injEq] at e
    obtain ⟨-, rfl⟩ := e
    obtain ⟨h1, h2⟩ := hf s.md h.2
    exact ⟨⟨h.1.perm.trans (h1.append_right B), h.1.wf⟩, h2⟩
  · intro s' e; simp [Verif.Heap.set] at e

theorem noBudget_inv {B lost : List Blk} {R : Md → Prop} : NoBudget (fun s => Inv B lost s ∧ R s.md) :=
  fun _ _ h => ⟨⟨h.1.perm, h.1.wf⟩, h.2⟩

theorem Triple.stepR (B lost : List Blk) (R : Md → Prop) {E : S → Prop} (he : ∀ s, Inv B lost s ∧ R s.md → E s) :
    Triple (fun s => Inv B lost s ∧ R s.md) Verif.Heap.step (fun _ s => Inv B lost s ∧ R s.md) E :=
  Triple.step noBudget_inv he

/-- What holds when the parser stops early: at most three blocks are lost. -/
def Stopped (B : List Blk) (R : Md → Prop) (s : S) : Prop := ∃ lost, lost.length ≤ 3 ∧ Inv B lost s ∧ R s.md

theorem stopped {B lost : List Blk} {R R' : Md → Prop} (hl : lost.length ≤ 3) (hr : ∀ m, R m → R' m) (s : S)
    (h : Inv B lost s ∧ R s.md) : Stopped B R' s := ⟨lost, hl, h.1, hr _ h.2⟩

theorem Triple.readUnits (B : List Blk) (nd : Nat) (n k : Nat) :
    Triple (fun s => Inv B [] s ∧ (s.md.obj.isSome = true ∧ s.md.deps.length = nd ∧ s.md.units.length = k))
      (readUnits n)
      (fun _ s => Inv B [] s ∧ (s.md.obj.isSome = true ∧ s.md.deps.length = nd ∧ s.md.units.length = k + n))
      (Stopped B fun m => m.obj.isSome = true ∧ m.deps.length = nd) := by
  induction n generalizing k with
  | zero =>
    rw [Verif.Heap.readUnits]
    exact Triple.pure.weaken (fun s h => h) (fun a s h => h) (fun s h => h)
  | succ n ih =>
    rw [Verif.Heap.readUnits]
    have hr : ∀ m : Md, (m.obj.isSome = true ∧ m.deps.length = nd ∧ m.units.length = k) →
        (m.obj.isSome = true ∧ m.deps.length = nd) := fun m h => ⟨h.1, h.2.1⟩
    have hc := fun lost (hl : lost.length ≤ 3) => Triple.calloc (B := B) (lost := lost)
      (R := fun m => m.obj.isSome = true ∧ m.deps.length = nd ∧ m.units.length = k)
      (E := Stopped B fun m => m.obj.isSome = true ∧ m.deps.length = nd) (stopped hl hr)
    have hs := fun lost (hl : lost.length ≤ 3) => Triple.stepR B lost
      (fun m => m.obj.isSome = true ∧ m.deps.length = nd ∧ m.units.length = k)
      (E := Stopped B fun m => m.obj.isSome = true ∧ m.deps.length = nd)
      (stopped (R := fun m => m.obj.isSome = true ∧ m.deps.length = nd ∧ m.units.length = k) hl hr)
    refine (hc [] (by simp)).bind fun u => (hs [u] (by simp)).bind fun _ =>
      (hc [u] (by simp)).bind fun o => (hs [o, u] (by simp)).bind fun _ =>
      (hc [o, u] (by simp)).bind fun w => (hs [w, o, u] (by simp)).bind fun _ => ?_
    refine Triple.bind (Triple.set (B := B) (lost := [w, o, u]) (lost' := [])
      (R := fun m => m.obj.isSome = true ∧ m.deps.length = nd ∧ m.units.length = k)
      (R' := fun m => m.obj.isSome = true ∧ m.deps.length = nd ∧ m.units.length = k + 1) ?_) fun _ => ?_
    · intro m hm
      refine ⟨?_, hm.1, hm.2.1, by simp [hm.2.2]⟩
      simp only [Md.blocks, List.flatMap_append, List.flatMap_cons, List.flatMap_nil, List.append_nil,
        List.nil_append]
      rw [List.perm_iff_count]
      intro a
      simp only [List.count_append, List.count_cons, List.count_nil]
      omega
    · have h := ih (k + 1)
      have e : k + 1 + n = k + (n + 1) := by omega
      rw [e] at h
      exact h

theorem Triple.readDeps (B : List Blk) (n k : Nat) :
    Triple (fun s => Inv B [] s ∧ (s.md.obj.isSome = true ∧ s.md.deps.length = k))
      (readDeps n)
      (fun _ s => Inv B [] s ∧ (s.md.obj.isSome = true ∧ s.md.deps.length = k + n))
      (Stopped B fun m => m.obj.isSome = true ∧ m.deps.length ≤ k + n) := by
  induction n generalizing k with
  | zero =>
    rw [Verif.Heap.readDeps]
    exact Triple.pure.weaken (fun s h => h) (fun a s h => h) (fun s h => h)
  | succ n ih =>
    rw [Verif.Heap.readDeps]
    have hr : ∀ m : Md, (m.obj.isSome = true ∧ m.deps.length = k) →
        (m.obj.isSome = true ∧ m.deps.length ≤ k + (n + 1)) := fun m h => ⟨h.1, by omega⟩
    refine (Triple.calloc (B := B) (lost := []) (R := fun m => m.obj.isSome = true ∧ m.deps.length = k)
        (stopped (by simp) hr)).bind fun d =>
      (Triple.stepR B [d] (fun m => m.obj.isSome = true ∧ m.deps.length = k) (stopped (by simp) hr)).bind fun _ => ?_
    refine Triple.bind (Triple.set (B := B) (lost := [d]) (lost' := [])
      (R := fun m => m.obj.isSome = true ∧ m.deps.length = k)
      (R' := fun m => m.obj.isSome = true ∧ m.deps.length = k + 1) ?_) fun _ => ?_
    · intro m hm
      refine ⟨?_, hm.1, by simp [hm.2]⟩
      simp only [Md.blocks, List.nil_append]
      rw [List.perm_iff_count]
      intro a
      simp only [List.count_append, List.count_cons, List.count_nil]
      omega
    · have h := ih (k + 1)
      have e : k + 1 + n = k + (n + 1) := by omega
      rw [e] at h
      exact h

theorem Triple.readRefs (B : List Blk) (n k : Nat) :
    Triple (fun s => Inv B [] s ∧ (s.md.obj.isSome = true ∧ s.md.deps.length = k))
      (readRefs n)
      (fun _ s => Inv B [] s ∧ (s.md.obj.isSome = true ∧ s.md.deps.length = k))
      (Stopped B fun m => m.obj.isSome = true ∧ m.deps.length ≤ k) := by
  induction n with
  | zero =>
    rw [Verif.Heap.readRefs]
    exact Triple.pure.weaken (fun s h => h) (fun a s h => h) (fun s h => h)
  | succ n ih =>
    rw [Verif.Heap.readRefs]
    have hr : ∀ m : Md, (m.obj.isSome = true ∧ m.deps.length = k) →
        (m.obj.isSome = true ∧ m.deps.length ≤ k) := fun m h => ⟨h.1, by omega⟩
    have hc := fun lost (hl : lost.length ≤ 3) => Triple.calloc (B := B) (lost := lost)
      (R := fun m => m.obj.isSome = true ∧ m.deps.length = k)
      (E := Stopped B fun m => m.obj.isSome = true ∧ m.deps.length ≤ k) (stopped hl hr)
    have hs := fun lost (hl : lost.length ≤ 3) => Triple.stepR B lost
      (fun m => m.obj.isSome = true ∧ m.deps.length = k)
      (E := Stopped B fun m => m.obj.isSome = true ∧ m.deps.length ≤ k)
      (stopped (R := fun m => m.obj.isSome = true ∧ m.deps.length = k) hl hr)
    refine (hc [] (by simp)).bind fun u => (hs [u] (by simp)).bind fun _ =>
      (hc [u] (by simp)).bind fun o => (hs [o, u] (by simp)).bind fun _ =>
      (hc [o, u] (by simp)).bind fun w => (hs [w, o, u] (by simp)).bind fun _ => ?_
    refine Triple.bind (Triple.set (B := B) (lost := [w, o, u]) (lost' := [])
      (R := fun m => m.obj.isSome = true ∧ m.deps.length = k)
      (R' := fun m => m.obj.isSome = true ∧ m.deps.length = k) ?_) fun _ => ih
    intro m hm
    refine ⟨?_, hm.1, hm.2⟩
    simp only [Md.blocks, List.flatMap_append, List.flatMap_cons, List.flatMap_nil, List.append_nil,
      List.nil_append]
    rw [List.perm_iff_count]
    intro a
    simp only [List.count_append, List.count_cons, List.count_nil]
    omega

/-- What is known of metadata at the end of parsing, early or not, with up to `nd` dependencies. -/
def Ends (nd : Nat) (m : Md) : Prop :=
  (m.obj = none → m.buildId = none ∧ m.name = none ∧ m.units = []) ∧ m.deps.length ≤ nd

theorem Triple.readHeader (B : List Blk) :
    Triple (fun s => Inv B [] s ∧ s.md = {}) readHeader
      (fun _ s => Inv B [] s ∧ (s.md.obj.isSome = true ∧ s.md.deps.length = 0 ∧ s.md.units.length = 0))
      (Stopped B (Ends 0)) := by
  have hset : ∀ {R R' : Md → Prop} {b : Blk} {f : Md → Md},
      (∀ m, R m → (b :: m.blocks).Perm (f m).blocks ∧ R' (f m)) →
      Triple (fun s => Inv B [b] s ∧ R s.md) (Verif.Heap.set f) (fun _ s => Inv B [] s ∧ R' s.md) (Stopped B (Ends 0)) :=
    fun h => Triple.set fun m hm => by simpa using h m hm
  have hs := fun (R : Md → Prop) (h : ∀ m, R m → Ends 0 m) => Triple.stepR B [] R
      (E := Stopped B (Ends 0)) (stopped (R := R) (by simp) h)
  have hc := fun (R : Md → Prop) (h : ∀ m, R m → Ends 0 m) => Triple.calloc (B := B) (lost := [])
      (R := R) (E := Stopped B (Ends 0)) (stopped (by simp) h)
  let R0 : Md → Prop := fun m => m = {}
  let R1 : Md → Prop := fun m => m.obj = none ∧ m.buildId = none ∧ m.name = none ∧ m.units = [] ∧ m.deps = [] ∧
    m.refs = []
  let R2 : Md → Prop := fun m => m.obj.isSome = true ∧ m.buildId = none ∧ m.name = none ∧ m.units = [] ∧ m.deps = []
  let R3 : Md → Prop := fun m => m.obj.isSome = true ∧ m.name = none ∧ m.units = [] ∧ m.deps = []
  let R4 : Md → Prop := fun m => m.obj.isSome = true ∧ m.deps.length = 0 ∧ m.units.length = 0
  have e0 : ∀ m, R0 m → Ends 0 m := by intro m hm; rw [show m = {} from hm]; exact ⟨fun _ => ⟨rfl, rfl, rfl⟩, by simp⟩
  have e1 : ∀ m, R1 m → Ends 0 m := by
    intro m hm; exact ⟨fun _ => ⟨hm.2.1, hm.2.2.1, hm.2.2.2.1⟩, by simp [hm.2.2.2.2.1]⟩
  have e2 : ∀ m, R2 m → Ends 0 m := by
    intro m hm; exact ⟨fun h => by have := hm.1; rw [h] at this; simp at this, by simp [hm.2.2.2.2]⟩
  have e3 : ∀ m, R3 m → Ends 0 m := by
    intro m hm; exact ⟨fun h => by have := hm.1; rw [h] at this; simp at this, by simp [hm.2.2.2]⟩
  have e4 : ∀ m, R4 m → Ends 0 m := by
    intro m hm; exact ⟨fun h => by have := hm.1; rw [h] at this; simp at this, by simp [hm.2.1]⟩
  unfold Verif.Heap.readHeader
  refine (hs R0 e0).bind fun _ => (hc R0 e0).bind fun b => (hset (R' := R1) ?_).bind fun _ =>
    (hs R1 e1).bind fun _ => (hc R1 e1).bind fun b => (hset (R' := R2) ?_).bind fun _ =>
    (hs R2 e2).bind fun _ => (hc R2 e2).bind fun b => (hset (R' := R3) ?_).bind fun _ =>
    (hs R3 e3).bind fun _ => (hc R3 e3).bind fun b => (hset (R' := R4) ?_).bind fun _ => hs R4 e4
  · intro m hm
    rw [show m = {} from hm]
    exact ⟨by simp [Md.blocks], rfl, rfl, rfl, rfl, rfl, rfl⟩
  · intro m hm
    refine ⟨?_, rfl, hm.2.1, hm.2.2.1, hm.2.2.2.1, hm.2.2.2.2.1⟩
    simp only [Md.blocks, hm.1]
    rw [List.perm_iff_count]
    intro a
    simp only [List.count_append, List.count_cons, List.count_nil, Option.toList]
    omega
  · intro m hm
    refine ⟨?_, hm.1, hm.2.2.1, hm.2.2.2.1, hm.2.2.2.2⟩
    simp only [Md.blocks, hm.2.1]
    rw [List.perm_iff_count]
    intro a
    simp only [List.count_append, List.count_cons, List.count_nil, Option.toList]
    omega
  · intro m hm
    refine ⟨?_, hm.1, by simp [hm.2.2.2], by simp [hm.2.2.1]⟩
    simp only [Md.blocks, hm.2.1]
    rw [List.perm_iff_count]
    intro a
    simp only [List.count_append, List.count_cons, List.count_nil, Option.toList]
    omega

theorem ends_of {nd : Nat} {m : Md} (h : m.obj.isSome = true) (hd : m.deps.length ≤ nd) : Ends nd m :=
  ⟨fun h' => by rw [h'] at h; simp at h, hd⟩

/-- How many dependencies a file has. -/
def Shape.ndeps (sh : Shape) : Nat := if sh.revert then 0 else sh.deps

theorem Triple.parse (B : List Blk) (sh : Shape) :
    Triple (fun s => Inv B [] s ∧ s.md = {}) (parse sh)
      (fun _ s => Inv B [] s ∧ (s.md.obj.isSome = true ∧ s.md.deps.length = sh.ndeps))
      (Stopped B (Ends sh.ndeps)) := by
  have hE : ∀ nd s, nd ≤ sh.ndeps → Stopped B (fun m => m.obj.isSome = true ∧ m.deps.length ≤ nd) s →
      Stopped B (Ends sh.ndeps) s := by
    rintro nd s hle ⟨lost, h1, h2, h3, h4⟩
    exact ⟨lost, h1, h2, ends_of h3 (Nat.le_trans h4 hle)⟩
  unfold Verif.Heap.parse
  refine ((Triple.readHeader B).weaken (fun s h => h) (fun a s h => h) ?_).bind fun _ => ?_
  · rintro s ⟨lost, h1, h2, h3⟩
    exact ⟨lost, h1, h2, h3.1, Nat.le_trans h3.2 (Nat.zero_le _)⟩
  · cases hr : sh.revert with
    | true =>
      have hp : Triple (fun s => Inv B [] s ∧ (s.md.obj.isSome = true ∧ s.md.deps.length = sh.ndeps))
        (Pure.pure () : M Unit)
        (fun _ s => Inv B [] s ∧ (s.md.obj.isSome = true ∧ s.md.deps.length = sh.ndeps))
        (Stopped B (Ends sh.ndeps)) :=
        Triple.pure (Q := fun _ s => Inv B [] s ∧ (s.md.obj.isSome = true ∧ s.md.deps.length = sh.ndeps))
      exact hp.weaken (fun s h => ⟨h.1, h.2.1, by rw [h.2.2.1]; simp [Shape.ndeps, hr]⟩) (fun a s h => h)
        (fun s h => h)
    | false =>
      have hnd : sh.ndeps = sh.deps := by simp [Shape.ndeps, hr]
      simp only [Bool.false_eq_true, if_false]
      refine (Triple.stepR B [] (fun m => m.obj.isSome = true ∧ m.deps.length = 0 ∧
        m.units.length = 0) (stopped (R := fun m => m.obj.isSome = true ∧ m.deps.length = 0 ∧
        m.units.length = 0) (by simp) fun m h => ends_of h.1 (by omega))).bind fun _ => ?_
      refine ((Triple.readUnits B 0 sh.units 0).weaken (fun s h => h) (fun a s h => h) ?_).bind fun _ => ?_
      · rintro s ⟨lost, h1, h2, h3, h4⟩; exact ⟨lost, h1, h2, ends_of h3 (by omega)⟩
      refine (Triple.stepR B [] (fun m => m.obj.isSome = true ∧ m.deps.length = 0 ∧
        m.units.length = 0 + sh.units) (stopped (R := fun m => m.obj.isSome = true ∧ m.deps.length = 0 ∧
        m.units.length = 0 + sh.units) (by simp) fun m h => ends_of h.1 (by omega))).bind fun _ => ?_
      refine ((Triple.readDeps B sh.deps 0).weaken (fun s h => ⟨h.1, h.2.1, h.2.2.1⟩) (fun a s h => h)
        (fun s h => hE _ s (by omega) h)).bind fun _ => ?_
      refine (Triple.stepR B [] (fun m => m.obj.isSome = true ∧ m.deps.length = 0 + sh.deps)
        (stopped (R := fun m => m.obj.isSome = true ∧ m.deps.length = 0 + sh.deps) (by simp) fun m h => ends_of h.1 (by omega))).bind fun _ => ?_
      refine (Triple.readRefs B sh.refs (0 + sh.deps)).weaken (fun s h => h) (fun a s h => ?_)
        (fun s h => hE _ s (by omega) h)
      exact ⟨h.1, h.2.1, by omega⟩

/-- The library releases all but the dependencies. -/
theorem freedByLib_perm {nd : Nat} {m : Md} (h : Ends nd m) : m.blocks.Perm (freedByLib m ++ m.deps) := by
  unfold freedByLib Md.blocks
  rw [List.perm_iff_count]
  intro a
  cases ho : m.obj with
  | none =>
    obtain ⟨h1, h2, h3⟩ := h.1 ho
    rw [h1, h2, h3]
    simp only [List.count_append, List.count_nil, Option.toList, List.flatMap_nil]
    omega
  | some o =>
    simp only [List.count_append, List.count_cons, List.count_nil, Option.toList]
    omega

theorem freedUnits_perm (us : List UnitB) : (us.flatMap fun u => [u.old, u.new, u.self]).Perm (freedUnits us) := by
  induction us with
  | nil => exact List.Perm.refl _
  | cons u us ih =>
    rw [List.perm_iff_count] at ih ⊢
    intro a
    have := ih a
    simp only [freedUnits, List.flatMap_cons, List.count_append, List.count_cons, List.count_nil] at this ⊢
    omega

theorem freedDeps_perm (ds : List Blk) : ds.Perm (freedDeps ds) := by
  induction ds with
  | nil => exact List.Perm.refl _
  | cons d ds ih =>
    rw [List.perm_iff_count] at ih ⊢
    intro a
    have := ih a
    simp only [freedDeps, List.count_append, List.count_cons, List.count_nil] at this ⊢
    omega

theorem freedRefs_perm (rs : List RefB) :
    (rs.flatMap fun r => [r.target, r.reference, r.self]).Perm (freedRefs rs) := by
  induction rs with
  | nil => exact List.Perm.refl _
  | cons u us ih =>
    rw [List.perm_iff_count] at ih ⊢
    intro a
    have := ih a
    simp only [freedRefs, List.flatMap_cons, List.count_append, List.count_cons, List.count_nil] at this ⊢
    omega

/-- The tool releases everything. -/
theorem freedByTool_perm {nd : Nat} {m : Md} (h : Ends nd m) : m.blocks.Perm (freedByTool m) := by
  unfold freedByTool Md.blocks
  rw [List.perm_iff_count]
  intro a
  have h1 := List.perm_iff_count.mp (freedUnits_perm m.units) a
  have h2 := List.perm_iff_count.mp (freedDeps_perm m.deps) a
  have h3 := List.perm_iff_count.mp (freedRefs_perm m.refs) a
  cases ho : m.obj with
  | none =>
    obtain ⟨h4, h5, h6⟩ := h.1 ho
    rw [h4, h5, h6]
    simp only [List.count_append, List.count_nil, Option.toList, List.flatMap_nil]
    omega
  | some o =>
    simp only [List.count_append, List.count_cons, List.count_nil, Option.toList]
    omega

theorem bind_some {α β} {m : M α} {f : α → M β} {s s1 : S} {a : α} (h : m s = (some a, s1)) :
    (m >>= f) s = f a s1 := by
  have hd : (m >>= f) s = (match m s with
    | (none, s) => (none, s)
    | (some a, s) => f a s) := rfl
  rw [hd, h]

theorem bind_none {α β} {m : M α} {f : α → M β} {s s1 : S} (h : m s = (none, s1)) :
    (m >>= f) s = (none, s1) := by
  have hd : (m >>= f) s = (match m s with
    | (none, s) => (none, s)
    | (some a, s) => f a s) := rfl
  rw [hd, h]

theorem calloc_run (s : S) (B lost : List Blk) (h : Inv B lost s) :
    (∃ b s', calloc s = (some b, s') ∧ Inv B (b :: lost) s' ∧ s'.md = s.md) ∨
    (∃ s', calloc s = (none, s') ∧ Inv B lost s' ∧ s'.md = s.md) := by
  have hc := Triple.calloc (B := B) (lost := lost) (R := fun m => m = s.md)
    (E := fun s' => Inv B lost s' ∧ s'.md = s.md) (fun s' h' => h') s ⟨h, rfl⟩
  rcases hm : calloc s with ⟨_ | b, s1⟩
  · obtain ⟨h1, h2⟩ := hc.2 s1 hm
    exact Or.inr ⟨s1, rfl, h1, h2⟩
  · obtain ⟨h1, h2⟩ := hc.1 b s1 hm
    exact Or.inl ⟨b, s1, rfl, h1, h2⟩

/-- A number of allocations. -/
theorem callocs_run (n : Nat) (s : S) (B lost : List Blk) (h : Inv B lost s) :
    (∃ bs s', callocs n s = (some bs, s') ∧ bs.length = n ∧ Inv B (bs ++ lost) s' ∧ s'.md = s.md) ∨
    (∃ bs s', callocs n s = (none, s') ∧ Inv B (bs ++ lost) s' ∧ s'.md = s.md) := by
  induction n generalizing s lost with
  | zero => exact Or.inl ⟨[], s, rfl, rfl, h, rfl⟩
  | succ n ih =>
    unfold callocs
    rcases calloc_run s B lost h with ⟨b, s1, e0, h1, h2⟩ | ⟨s1, e0, h1, h2⟩
    case inr => exact Or.inr ⟨[], s1, bind_none e0, h1, h2⟩
    rw [bind_some e0]
    rcases ih s1 (b :: lost) h1 with ⟨bs, s2, e1, e2, e3, e4⟩ | ⟨bs, s2, e1, e3, e4⟩
    · left
      rw [bind_some e1]
      refine ⟨b :: bs, s2, rfl, by simp [e2], ?_, e4.trans h2⟩
      refine ⟨e3.perm.trans ?_, e3.wf⟩
      rw [List.perm_iff_count]; intro a
      simp only [List.count_append, List.count_cons]; omega
    · right
      refine ⟨b :: bs, s2, bind_none e1, ?_, e4.trans h2⟩
      refine ⟨e3.perm.trans ?_, e3.wf⟩
      rw [List.perm_iff_count]; intro a
      simp only [List.count_append, List.count_cons]; omega

theorem step_run (s : S) (B lost : List Blk) (h : Inv B lost s) :
    (∃ s', step s = (some (), s') ∧ Inv B lost s' ∧ s'.md = s.md) ∨
    (∃ s', step s = (none, s') ∧ Inv B lost s' ∧ s'.md = s.md) := by
  have hc := Triple.stepR B lost (fun m => m = s.md)
    (E := fun s' => Inv B lost s' ∧ s'.md = s.md) (fun s' h' => h') s ⟨h, rfl⟩
  rcases hm : step s with ⟨_ | b, s1⟩
  · obtain ⟨h1, h2⟩ := hc.2 s1 hm
    exact Or.inr ⟨s1, rfl, h1, h2⟩
  · obtain ⟨h1, h2⟩ := hc.1 () s1 hm
    exact Or.inl ⟨s1, rfl, h1, h2⟩

/-- The state of an applied patch. -/
theorem stateUpdate_run (sh : Shape) (s : S) (B : List Blk) (h : Inv B [] s) :
    (∃ a s', stateUpdate sh s = (some a, s') ∧ Inv B a.blocks s' ∧ s'.md = s.md ∧
      a.deps.length = sh.deps ∧ a.units.length = sh.units) ∨
    (∃ lost s', stateUpdate sh s = (none, s') ∧ Inv B lost s' ∧ s'.md = s.md) := by
  unfold stateUpdate
  rcases calloc_run s B [] h with ⟨b1, s1, e1, i1, m1⟩ | ⟨s1, e1, i1, m1⟩
  case inr => exact Or.inr ⟨_, s1, bind_none e1, i1, m1⟩
  rw [bind_some e1]
  rcases calloc_run s1 B _ i1 with ⟨b2, s2, e2, i2, m2⟩ | ⟨s2, e2, i2, m2⟩
  case inr => exact Or.inr ⟨_, s2, bind_none e2, i2, m2.trans m1⟩
  rw [bind_some e2]
  rcases calloc_run s2 B _ i2 with ⟨b3, s3, e3, i3, m3⟩ | ⟨s3, e3, i3, m3⟩
  case inr => exact Or.inr ⟨_, s3, bind_none e3, i3, m3.trans (m2.trans m1)⟩
  rw [bind_some e3]
  rcases callocs_run sh.deps s3 B _ i3 with ⟨ds, s4, e4, l4, i4, m4⟩ | ⟨ds, s4, e4, i4, m4⟩
  case inr => exact Or.inr ⟨_, s4, bind_none e4, i4, m4.trans (m3.trans (m2.trans m1))⟩
  rw [bind_some e4]
  rcases callocs_run sh.units s4 B _ i4 with ⟨us, s5, e5, l5, i5, m5⟩ | ⟨us, s5, e5, i5, m5⟩
  case inr => exact Or.inr ⟨_, s5, bind_none e5, i5, m5.trans (m4.trans (m3.trans (m2.trans m1)))⟩
  rw [bind_some e5]
  rcases step_run s5 B _ i5 with ⟨s6, e6, i6, m6⟩ | ⟨s6, e6, i6, m6⟩
  case inr => exact Or.inr ⟨_, s6, bind_none e6, i6, m6.trans (m5.trans (m4.trans (m3.trans (m2.trans m1))))⟩
  rw [bind_some e6]
  refine Or.inl ⟨⟨b1, b2, b3, ds, us⟩, s6, rfl, ⟨i6.perm.trans ?_, i6.wf⟩,
    m6.trans (m5.trans (m4.trans (m3.trans (m2.trans m1)))), l4, l5⟩
  rw [List.perm_iff_count]; intro a
  simp only [Applied.blocks, List.count_append, List.count_cons, List.count_nil]; omega

end Verif.Heap
