import Verif.Hijack.Props
import Mathlib.Tactic.Tauto

/-! # A thread that escapes, in general (C35) -/

namespace Verif.Hijack

variable {R : Type}

theorem steps_trans {may : May} {a b c : St R} (h : Steps may a b) (h' : Steps may b c) : Steps may a c := by
  induction h' with
  | refl => exact h
  | tail _ st ih => exact ih.tail st

/-- The tool attaches all threads of a list. -/
theorem attach_list {may : May} (ts : List Nat) (hnd : ts.Nodup) (s : St R) (l : Bool) (hp : s.pc = .scan l)
    (h : ∀ t ∈ ts, s.alive t ∧ ¬ s.attached t ∧ t ∉ s.threads.map Prod.fst) :
    ∃ att thr mu l', Steps may s { s with attached := att, threads := thr, must := mu, pc := .scan l' } ∧
      (∀ t, att t ↔ t ∈ ts ∨ s.attached t) ∧ (∀ t, t ∈ thr.map Prod.fst ↔ t ∈ ts ∨ t ∈ s.threads.map Prod.fst) ∧
      (∀ t, mu t ↔ t ∉ ts ∧ s.must t) ∧ (ts ≠ [] → l' = true) ∧ (ts = [] → l' = l) := by
  induction ts generalizing s l with
  | nil =>
    refine ⟨s.attached, s.threads, s.must, l, ?_, by simp, by simp, by simp, by simp, by simp⟩
    rw [← hp]; exact .refl
  | cons t ts ih =>
    obtain ⟨ha, hn, ht⟩ := h t (by simp)
    rw [List.nodup_cons] at hnd
    have st : Step may s { s with attached := set s.attached t True, threads := (t, s.regs t) :: s.threads
                                  must := set s.must t False, pc := .scan true } := .attach s l t hp ht ha hn
    obtain ⟨att, thr, mu, l', s1, s2, s3, s4, s5, s6⟩ := ih hnd.2
      { s with attached := set s.attached t True, threads := (t, s.regs t) :: s.threads, must := set s.must t False, pc := .scan true } true rfl (by
        intro x hx
        obtain ⟨a1, a2, a3⟩ := h x (by simp [hx])
        have hxt : x ≠ t := by rintro rfl; exact hnd.1 hx
        refine ⟨a1, by simp [set, hxt, a2], ?_⟩
        simp only [List.map_cons, List.mem_cons, not_or]
        exact ⟨hxt, a3⟩)
    refine ⟨att, thr, mu, l', steps_trans (.tail .refl st) s1, ?_, ?_, ?_, ?_, by simp⟩
    · intro x; rw [s2]; simp only [set_true, List.mem_cons]; tauto
    · intro x; rw [s3]; simp only [List.map_cons, List.mem_cons]; tauto
    · intro x; rw [s4]; simp only [set_false, List.mem_cons]; tauto
    · intro _
      by_cases e : ts = []
      · exact s6 e
      · exact s5 e

/-- `readdir` gives all threads of a list, all of them known. -/
theorem known_list {may : May} (ts : List Nat) (s : St R) (l : Bool) (hp : s.pc = .scan l)
    (h : ∀ t ∈ ts, t ∈ s.threads.map Prod.fst) :
    ∃ mu, Steps may s { s with must := mu } ∧ ∀ t, mu t ↔ t ∉ ts ∧ s.must t := by
  induction ts generalizing s with
  | nil => exact ⟨s.must, .refl, by simp⟩
  | cons t ts ih =>
    have st : Step may s { s with must := set s.must t False } := .known s l t hp (h t (by simp))
    obtain ⟨mu, s1, s2⟩ := ih { s with must := set s.must t False } hp (fun x hx => h x (by simp [hx]))
    refine ⟨mu, steps_trans (.tail .refl st) s1, ?_⟩
    intro x; rw [s2]; simp only [set_false, List.mem_cons]; tauto

/-- **C35** (why threads must not end meanwhile) Whatever threads a process has besides one: if that one starts another and ends in the first pass over the directory
before it is listed, and the new one does the same in the second pass, the tool reports that all threads are hijacked, the others being attached, and the last one is running. -/
theorem C35_thread_escapes_always (regs : Nat → R) (ts : List Nat) (hnd : ts.Nodup) (hne : ts ≠ []) (u v w : Nat)
    (hu : u ∉ ts) (hv : v ∉ ts) (hw : w ∉ ts) (huv : v ≠ u) (huw : w ≠ u) (hvw : w ≠ v) :
    ∃ s : St R, Steps ⟨true, false, false⟩ (start (fun t => t ∈ ts ∨ t = u) regs) s ∧ s.pc = .ret 0 ∧ s.hijacked = true ∧
      (∀ t ∈ ts, s.alive t ∧ s.attached t) ∧ s.alive w ∧ ¬ s.attached w := by
  obtain ⟨att, thr, mu, l', s1, s2, s3, s4, s5, -⟩ := attach_list (may := ⟨true, false, false⟩) ts hnd
    (start (fun t => t ∈ ts ∨ t = u) regs) false rfl (by intro t ht; simp [start, ht])
  obtain rfl := s5 hne
  simp only [start] at s1 s2 s3 s4
  have ats : ∀ t, t ∉ ts → ¬ att t := by intro t ht h; exact ((s2 t).mp h).elim ht id
  have s6 := s1.tail (.spawn _ u v (.inr rfl) (ats u hu) (fun h => h.elim hv huv))
  have s7 := s6.tail (.exit _ u rfl (set_true.mpr (.inr (.inr rfl))) (ats u hu))
  have s8 := s7.tail (.again _ rfl (by
    intro t h1 h2
    simp only [set_true, set_false, s4] at h1 h2
    tauto))
  obtain ⟨mu', s9, s10⟩ := known_list (may := ⟨true, false, false⟩) ts
    (⟨set (set (fun t => t ∈ ts ∨ t = u) v True) u False, att, regs, thr, false, .scan false,
      set (set (fun t => t ∈ ts ∨ t = u) v True) u False, fun _ => False, []⟩ : St R) false rfl (fun t ht => (s3 t).mpr (.inl ht))
  have s11 := steps_trans s8 s9
  have s12 := s11.tail (.spawn _ v w (by simp only [set_true, set_false]; tauto) (ats v hv) (by simp only [set_true, set_false]; tauto))
  have s13 := s12.tail (.exit _ v rfl (by simp only [set_true, set_false]; tauto) (ats v hv))
  have s14 := s13.tail (.success _ rfl (by
    intro t h1 h2
    simp only [set_true, set_false, s10] at h1 h2
    tauto))
  refine ⟨_, s14, rfl, rfl, ?_, ?_, ats w hw⟩
  · intro t ht
    have h1 : t ≠ v := by rintro rfl; exact hv ht
    have h2 : t ≠ u := by rintro rfl; exact hu ht
    refine ⟨?_, (s2 t).mpr (.inl ht)⟩
    simp only [set_true, set_false]; tauto
  · simp only [set_true, set_false]; tauto

example : ∃ s : St Nat, Steps ⟨true, false, false⟩ (start (fun t => t ∈ [1, 2, 5] ∨ t = 7) id) s ∧ s.pc = .ret 0 ∧ s.hijacked = true ∧
    (∀ t ∈ [1, 2, 5], s.alive t ∧ s.attached t) ∧ s.alive 9 ∧ ¬ s.attached 9 :=
  C35_thread_escapes_always id [1, 2, 5] (by decide) (by decide) 7 8 9 (by decide) (by decide) (by decide) (by decide) (by decide) (by decide)

end Verif.Hijack
