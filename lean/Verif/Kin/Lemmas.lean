import Verif.Kin.Spec

/-!
# Lemmas about processes and their memories
-/

namespace Verif.Kin

/-- A number has at most one tool that holds it. -/
def OneHolder (s : Sys) : Prop :=
  ∀ i j t u, s.tool i = some t → s.tool j = some u → t.holds = true → u.holds = true → t.pid = u.pid → i = j

/-- No two processes have the same memory, and all memories are from before `next`. -/
structure Apart (s : Sys) : Prop where
  known : ∀ p m, s.proc p = some m → m < s.next
  apart : ∀ p q m, s.proc p = some m → s.proc q = some m → p = q

/-- Every tool knows the program of its process. -/
structure Fresh (s : Sys) : Prop where
  same : ∀ i t, s.tool i = some t → s.proc t.pid = some t.seen
  base : ∀ i t, s.tool i = some t → t.buffer = (s.space t.seen).buffer
  known : ∀ p m, s.proc p = some m → m < s.next

theorem upd {α : Type} (f : Nat → α) (a b : Nat) (v : α) :
    Function.update f a v b = if b = a then v else f b := by
  by_cases h : b = a
  · subst h; simp
  · simp [h]

theorem oneHolder_step {may : May} {s s' : Sys} (h : OneHolder s) (st : Step may s s') : OneHolder s' := by
  cases st with
  | own => exact h
  | fork => exact h
  | vfork => exact h
  | exec => exact h
  | leave => exact h
  | born => exact h
  | look h1 h2 =>
    intro i j t u
    simp only [setTool, upd]
    grind [OneHolder, look]
  | hold h1 h2 h3 h4 =>
    intro i j t u
    simp only [setTool, upd]
    grind [OneHolder, Held]
  | write h1 h2 h3 h4 =>
    intro i j t u
    simp only [setTool, setSpace, upd]
    grind [OneHolder]
  | release h1 h2 h3 =>
    intro i j t u
    simp only [setTool, upd]
    grind [OneHolder]
  | giveUp h1 h2 =>
    intro i j t u
    simp only [setTool, upd]
    grind [OneHolder]

theorem oneHolder_steps {may : May} {s s' : Sys} (h : OneHolder s) (st : Steps may s s') : OneHolder s' := by
  induction st with
  | refl => exact h
  | tail _ b ih => exact oneHolder_step ih b

theorem apart_step {may : May} (hm : may.shares = false) {s s' : Sys} (h : Apart s) (st : Step may s s') :
    Apart s' := by
  obtain ⟨hk, ha⟩ := h
  cases st with
  | own => exact ⟨hk, ha⟩
  | fork h1 h2 h3 =>
    constructor
    · intro p m; simp only [forked, upd]; grind
    · intro p q m; simp only [forked, upd]; grind
  | vfork h1 => simp [hm] at h1
  | exec h1 h2 h3 =>
    constructor
    · intro p m; simp only [started, upd]; grind
    · intro p q m; simp only [started, upd]; grind
  | leave h1 h2 =>
    constructor
    · intro p m; simp only [gone, upd]; grind
    · intro p q m; simp only [gone, upd]; grind
  | born h1 h2 =>
    constructor
    · intro p m; simp only [started, upd]; grind
    · intro p q m; simp only [started, upd]; grind
  | look => exact ⟨hk, ha⟩
  | hold => exact ⟨hk, ha⟩
  | write => exact ⟨hk, ha⟩
  | release => exact ⟨hk, ha⟩
  | giveUp => exact ⟨hk, ha⟩

theorem apart_steps {may : May} (hm : may.shares = false) {s s' : Sys} (h : Apart s) (st : Steps may s s') :
    Apart s' := by
  induction st with
  | refl => exact h
  | tail _ b ih => exact apart_step hm ih b

theorem fresh_step {may : May} (he : may.execs = false) (hl : may.ends = false) {s s' : Sys} (h : Fresh s)
    (st : Step may s s') : Fresh s' := by
  obtain ⟨hs, hb, hk⟩ := h
  cases st with
  | own h1 h2 =>
    refine ⟨hs, ?_, hk⟩
    intro i t ht
    have := hb i t ht
    simp only [setSpace, upd]
    grind
  | fork h1 h2 h3 =>
    refine ⟨?_, ?_, ?_⟩
    · intro i t ht; have := hs i t ht; simp only [forked, upd]; grind
    · intro i t ht
      have h5 := hs i t ht
      have h6 := hk _ _ h5
      have h7 := hb i t ht
      simp only [forked, upd]; grind
    · intro p m; simp only [forked, upd]; grind
  | vfork h0 h1 h2 h3 =>
    refine ⟨?_, hb, ?_⟩
    · intro i t ht; have := hs i t ht; simp only [vforked, upd]; grind
    · intro p m; simp only [vforked, upd]; grind
  | exec h1 => simp [he] at h1
  | leave h1 => simp [hl] at h1
  | born h1 h2 =>
    refine ⟨?_, ?_, ?_⟩
    · intro i t ht; have := hs i t ht; simp only [started, upd]; grind
    · intro i t ht
      have h5 := hs i t ht
      have h6 := hk _ _ h5
      have h7 := hb i t ht
      simp only [started, upd]; grind
    · intro p m; simp only [started, upd]; grind
  | look h1 h2 =>
    refine ⟨?_, ?_, hk⟩
    · intro i t; simp only [setTool, upd]; grind [look]
    · intro i t; simp only [setTool, upd]; grind [look]
  | hold h1 h2 h3 =>
    refine ⟨?_, ?_, hk⟩
    · intro i t; simp only [setTool, upd]; grind
    · intro i t; simp only [setTool, upd]; grind
  | write h1 h2 h3 h4 =>
    refine ⟨?_, ?_, hk⟩
    · intro i t; simp only [setTool, setSpace, upd]; grind
    · intro i t; simp only [setTool, setSpace, upd, Space.poke]; grind
  | release =>
    refine ⟨?_, ?_, hk⟩
    · intro i t; simp only [setTool, upd]; grind
    · intro i t; simp only [setTool, upd]; grind
  | giveUp =>
    refine ⟨?_, ?_, hk⟩
    · intro i t; simp only [setTool, upd]; grind
    · intro i t; simp only [setTool, upd]; grind

theorem fresh_steps {may : May} (he : may.execs = false) (hl : may.ends = false) {s s' : Sys} (h : Fresh s)
    (st : Steps may s s') : Fresh s' := by
  induction st with
  | refl => exact h
  | tail _ b ih => exact fresh_step he hl ih b

theorem Quiet.oneHolder {s : Sys} (h : Quiet s) : OneHolder s := by
  intro i j t u h1; simp [h.noTool] at h1

theorem Quiet.toApart {s : Sys} (h : Quiet s) : Apart s := ⟨h.known, h.apart⟩

theorem Quiet.fresh {s : Sys} (h : Quiet s) : Fresh s :=
  ⟨fun i t h1 => by simp [h.noTool] at h1, fun i t h1 => by simp [h.noTool] at h1, h.known⟩

theorem Quiet.notHeld {s : Sys} (h : Quiet s) (p : Nat) : ¬ Held s p := by
  rintro ⟨i, t, h1, _⟩; simp [h.noTool] at h1

end Verif.Kin
