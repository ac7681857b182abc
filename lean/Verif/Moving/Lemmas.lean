import Verif.Moving.Spec

namespace Verif.Moving

open Spec

theorem seg_append {mem : Nat → Option Node} (l r : List Nat) (a z : Nat) :
    Seg mem a (l ++ r) z ↔ ∃ y, Seg mem a l y ∧ Seg mem y r z := by
  induction l generalizing a with
  | nil => simp [Seg]
  | cons b l ih =>
    simp only [List.cons_append, Seg, ih]
    constructor
    · rintro ⟨h, nd, h1, y, h2, h3⟩; exact ⟨y, ⟨h, nd, h1, h2⟩, h3⟩
    · rintro ⟨y, ⟨h, nd, h1, h2⟩, h3⟩; exact ⟨h, nd, h1, y, h2, h3⟩

theorem seg_frame {mem : Nat → Option Node} {b : Nat} {v : Option Node} {l : List Nat} {a z : Nat} (hb : b ∉ l)
    (h : Seg mem a l z) : Seg (Function.update mem b v) a l z := by
  induction l generalizing a with
  | nil => exact h
  | cons c l ih =>
    obtain ⟨h1, nd, h2, h3⟩ := h
    refine ⟨h1, nd, ?_, ih (fun h => hb (List.mem_cons_of_mem _ h)) h3⟩
    rw [Function.update_of_ne (fun e => hb (by simp [e]))]; exact h2

theorem seg_some {mem : Nat → Option Node} {l : List Nat} {a z : Nat} (h : Seg mem a l z) {b : Nat} (hb : b ∈ l) :
    ∃ nd, mem b = some nd := by
  induction l generalizing a with
  | nil => simp at hb
  | cons c l ih =>
    obtain ⟨_, nd, h2, h3⟩ := h
    rcases List.mem_cons.mp hb with rfl | hb
    · exact ⟨nd, h2⟩
    · exact ih h3 hb

/-- A list stays one, and no element of it changes its name. -/
theorem step_sound {p q : Proc} {main : Nat} (hs : Sound p main) (st : Step p q) :
    (∃ l, q.list ≠ [] ∧ q.list = l ∧ Sound q main) ∧ ∀ a ∈ p.list, a ∈ q.list → nameAt q a = nameAt p a := by
  obtain ⟨hc, hn, h0, hne⟩ := hs
  cases st with
  | @scribble _ a v ha =>
    refine ⟨⟨_, hne, rfl, seg_frame ha hc, hn, h0, hne⟩, ?_⟩
    intro b hb _
    have : b ≠ a := fun e => ha (e ▸ hb)
    simp [nameAt, this]
  | @link mem l z nd a n ha ha0 hma hmz =>
    have haz : a ≠ z := fun e => ha (by simp [e])
    have hzl : z ∉ l := by
      have := List.nodup_append.mp hn
      intro hz; exact this.2.2 z hz z (by simp) rfl
    refine ⟨⟨_, by simp, rfl, ?_, ?_, ?_, by simp⟩, ?_⟩
    · obtain ⟨y, y1, y2⟩ := (seg_append l [z] main 0).1 hc
      obtain ⟨rfl, nd', hz', _⟩ := y2
      rw [List.append_assoc]
      refine (seg_append l ([y] ++ [a]) main 0).2 ⟨y, seg_frame hzl y1, rfl, { nd with next := a }, by simp, rfl, ⟨n, 0⟩, ?_, rfl⟩
      simp only
      rw [Function.update_of_ne haz]; exact hma
    · rw [List.nodup_append]
      refine ⟨hn, by simp, ?_⟩
      intro x hx y hy e
      simp only [List.mem_singleton] at hy
      exact ha (by rw [← hy, ← e]; exact hx)
    · intro h
      simp only [List.mem_append, List.mem_singleton] at h h0
      rcases h with h | h
      · exact h0 h
      · exact ha0 h.symm
    · intro b _ _
      by_cases hb : b = z
      · subst hb; simp [nameAt, hmz]
      · simp [nameAt, hb]
  | @unlink mem l r z nd a na hmz hma =>
    have hn' := hn
    rw [List.nodup_append] at hn'
    obtain ⟨n1, n2, n3⟩ := hn'
    have hzl : z ∉ l := by
      intro hz; exact (List.nodup_append.mp n1).2.2 z hz z (by simp) rfl
    have hza : z ≠ a := n3 z (by simp) a (by simp)
    have hzr : z ∉ r := fun h => n3 z (by simp) z (by simp [h]) rfl
    refine ⟨⟨_, by simp, rfl, ?_, ?_, ?_, by simp⟩, ?_⟩
    · obtain ⟨y, y1, y2⟩ := (seg_append (l ++ [z]) (a :: r) main 0).1 hc
      obtain ⟨rfl, nd', ha', y3⟩ := y2
      simp only at ha'
      rw [hma, Option.some.injEq] at ha'
      subst ha'
      obtain ⟨w, w1, w2⟩ := (seg_append l [z] main y).1 y1
      obtain ⟨rfl, nz, _, _⟩ := w2
      refine (seg_append (l ++ [w]) r main 0).2 ⟨na.next, ?_, seg_frame hzr y3⟩
      exact (seg_append l [w] main na.next).2 ⟨w, seg_frame hzl w1, rfl, { nd with next := na.next }, by simp, rfl⟩
    · rw [List.nodup_append]
      exact ⟨n1, (List.nodup_cons.mp n2).2, fun x hx y hy => n3 x hx y (by simp [hy])⟩
    · intro h
      apply h0
      simp only [List.mem_append, List.mem_cons] at h ⊢
      rcases h with h | h
      · exact Or.inl h
      · exact Or.inr (Or.inr h)
    · intro b _ _
      by_cases hb : b = z
      · subst hb; simp [nameAt, hmz]
      · simp [nameAt, hb]

/-- How far the tool is among the elements that are kept. -/
def Far (nm : Nat → Str) (S : List Nat) (t : Tool) : Prop :=
  (t.failed = false ∧ ∃ S1 b S2, S = S1 ++ b :: S2 ∧ t.seen = S1.map nm ∧ t.cursor = b) ∨ S.map nm <+: t.seen

theorem run_far {main : Nat} {S : List Nat} {p q : Proc} {t u : Tool} {nm : Nat → Str} (hs : Sound p main)
    (hk : (main :: S) <+: p.list) (hnm : ∀ a ∈ S, nm a = nameAt p a) (hf : Far nm S t) (r : Run (fun l => (main :: S) <+: l) p t q u) :
    Sound q main ∧ (main :: S) <+: q.list ∧ (∀ a ∈ S, nm a = nameAt q a) ∧ Far nm S u := by
  induction r with
  | refl => exact ⟨hs, hk, hnm, hf⟩
  | proc _ st hk2 ih =>
    obtain ⟨i1, i2, i3, i4⟩ := ih
    obtain ⟨⟨_, _, _, s1⟩, s2⟩ := step_sound i1 st
    refine ⟨s1, hk2, ?_, i4⟩
    intro a ha
    rw [i3 a ha]
    exact (s2 a (i2.subset (by simp [ha])) (hk2.subset (by simp [ha]))).symm
  | @tool p1 t1 _ hne ih =>
    obtain ⟨i1, i2, i3, i4⟩ := ih
    refine ⟨i1, i2, i3, ?_⟩
    rcases i4 with ⟨hfl, S1, b, S2, e1, e2, e3⟩ | h
    · obtain ⟨R, hR⟩ := i2
      have hchain := i1.chain
      rw [← hR, e1] at hchain
      have : main :: (S1 ++ b :: S2) ++ R = (main :: S1) ++ (b :: (S2 ++ R)) := by simp
      rw [this] at hchain
      obtain ⟨y, _, rfl, nd, hb, hrest⟩ := (seg_append _ _ _ _).1 hchain
      have hname : nd.name = nm y := by
        rw [i3 y (by simp [e1])]; simp [nameAt, hb]
      have hround : t1.round p1.mem = ⟨nd.next, S1.map nm ++ [nm y], false⟩ := by
        simp only [Tool.round, e3, hb, e2, hfl, hname]
      rw [hround]
      cases S2 with
      | nil =>
        right
        simp [e1]
      | cons c S2 =>
        left
        refine ⟨rfl, S1 ++ [y], c, S2, by simp [e1], by simp, ?_⟩
        exact hrest.1
    · right
      simp only [Tool.round]
      cases p1.mem t1.cursor with
      | none => exact h
      | some nd => exact h.trans (List.prefix_append _ _)

end Verif.Moving
