import Verif.Post.Model
import Verif.X86.Lemmas

/-! C44: `ulp post`. -/

namespace Verif.Post

open X86 (Plain bias hasEndbr patchable plain_patchable callDest_plain plain_endbr body_eq)

/-- Patchable function entries have 16 bytes each to themselves. -/
def Apart (es : List Nat) : Prop := ∀ a ∈ es, ∀ b ∈ es, a = b ∨ a + 16 ≤ b ∨ b + 16 ≤ a

/-- What the library must be like at the function at `a`, if there is a symbol for it: the section of the symbol has the
function, and two NOPs are at its entry. -/
def Ready (e : Elf) (a : Nat) : Prop :=
  ∀ x i, e.syms.find? (fun s => s.1 == a) = some (x, i) → ∃ s, e.secs[i]? = some s ∧ s.addr ≤ a
    ∧ a - s.addr + 4 ≤ s.data.length ∧ areNops s.data (nopOff s.data (a - s.addr))

/-- The NOPs are a single one. -/
def Merged (e : Elf) (a : Nat) : Prop :=
  ∀ x i, e.syms.find? (fun s => s.1 == a) = some (x, i) → ∃ s, e.secs[i]? = some s ∧ s.addr ≤ a
    ∧ a - s.addr + 4 ≤ s.data.length ∧ s.data[nopOff s.data (a - s.addr)]? = some 0x66
    ∧ s.data[nopOff s.data (a - s.addr) + 1]? = some 0x90

theorem lt_of_get {d : List UInt8} {o : Nat} {x} (h : d[o]? = some x) : o < d.length := by
  apply Classical.byContradiction; intro hc
  rw [List.getElem?_eq_none (by omega)] at h; exact absurd h (by simp)

theorem set_get {l : List Section} {i : Nat} {s : Section} (h : l[i]? = some s) (t : Section) :
    (l.set i t)[i]? = some t := by
  have hi : i < l.length := by
    apply Classical.byContradiction; intro hc
    rw [List.getElem?_eq_none (by omega)] at h; cases h
  simp [List.getElem?_set, hi]

theorem mergeNops_ok {s s' : Section} {a} (h : mergeNops s a = .ok s') :
    s.addr ≤ a ∧ a - s.addr + 4 ≤ s.data.length ∧ areNops s.data (nopOff s.data (a - s.addr))
      ∧ s' = { s with data := s.data.set (nopOff s.data (a - s.addr)) 0x66 } := by
  unfold mergeNops at h
  by_cases h1 : a < s.addr ∨ s.data.length < a - s.addr + 4
  · rw [if_pos h1] at h; cases h
  · rw [if_neg h1] at h
    by_cases h2 : s.data.length < nopOff s.data (a - s.addr) + 2
    · simp only [if_pos h2] at h; cases h
    · by_cases h3 : areNops s.data (nopOff s.data (a - s.addr))
      · simp only [if_neg h2, if_pos h3, Res.ok.injEq] at h
        exact ⟨by omega, by omega, h3, h.symm⟩
      · simp only [if_neg h2, if_neg h3] at h; cases h

theorem mergeNops_of {s : Section} {a} (h1 : s.addr ≤ a) (h2 : a - s.addr + 4 ≤ s.data.length)
    (h3 : areNops s.data (nopOff s.data (a - s.addr))) :
    mergeNops s a = .ok { s with data := s.data.set (nopOff s.data (a - s.addr)) 0x66 } := by
  have := lt_of_get h3.1
  unfold mergeNops
  rw [if_neg (by omega)]
  simp only
  rw [if_neg (by omega), if_pos h3]

/-- Whether a function starts with `endbr64` is not changed by merging NOPs anywhere. -/
theorem isEndbr_set {d : List UInt8} {p : Nat} (h : areNops d p) (o : Nat) :
    isEndbr (d.set p 0x66) o ↔ isEndbr d o := by
  have hp := lt_of_get h.1
  unfold isEndbr
  have key : ∀ (k : Nat) (x : UInt8), (x = 0xf3 ∨ x = 0x0f ∨ x = 0x1e ∨ x = 0xfa) → ((d.set p 0x66)[k]? = some x ↔ d[k]? = some x) := by
    intro k x hx
    rw [List.getElem?_set]
    by_cases hk : p = k
    · subst hk
      rw [if_pos rfl, if_pos (by omega)]
      rcases h.2 with h2 | h2 <;> rw [h2] <;> rcases hx with rfl | rfl | rfl | rfl <;> decide
    · rw [if_neg hk]
  rw [key _ _ (by simp), key _ _ (by simp), key _ _ (by simp), key _ _ (by simp)]

theorem nopOff_set {d : List UInt8} {p : Nat} (h : areNops d p) (o : Nat) :
    nopOff (d.set p 0x66) o = nopOff d o := by
  unfold nopOff
  by_cases ho : isEndbr d o
  · rw [if_pos ho, if_pos ((isEndbr_set h o).2 ho)]
  · rw [if_neg ho, if_neg (fun c => ho ((isEndbr_set h o).1 c))]

theorem nopOff_range (d : List UInt8) (o : Nat) : nopOff d o = o ∨ nopOff d o = o + 4 := by
  unfold nopOff; split <;> simp

/-- What one merge does. -/
theorem mergeAt_ok {e e' : Elf} {a} (h : mergeAt e a = .ok e') :
    (e.syms.find? (fun s => s.1 == a) = none ∧ e' = e) ∨
    ∃ x i s, e.syms.find? (fun s => s.1 == a) = some (x, i) ∧ e.secs[i]? = some s ∧ s.addr ≤ a
      ∧ a - s.addr + 4 ≤ s.data.length ∧ areNops s.data (nopOff s.data (a - s.addr))
      ∧ e' = { e with secs := e.secs.set i { s with data := s.data.set (nopOff s.data (a - s.addr)) 0x66 } } := by
  unfold mergeAt at h
  cases hf : e.syms.find? (fun s => s.1 == a) with
  | none => rw [hf] at h; simp only [Res.ok.injEq] at h; exact .inl ⟨rfl, h.symm⟩
  | some y =>
    obtain ⟨x, i⟩ := y
    rw [hf] at h
    simp only at h
    cases hs : e.secs[i]? with
    | none => rw [hs] at h; cases h
    | some s =>
      rw [hs] at h; simp only at h
      cases hm : mergeNops s a with
      | abort => rw [hm] at h; cases h
      | ub => rw [hm] at h; cases h
      | ok s' =>
        rw [hm] at h
        simp only [Res.ok.injEq] at h
        obtain ⟨h1, h2, h3, rfl⟩ := mergeNops_ok hm
        exact .inr ⟨x, i, s, rfl, hs, h1, h2, h3, h.symm⟩

theorem mergeAt_of {e : Elf} {a} (h : Ready e a) : ∃ e', mergeAt e a = .ok e' := by
  unfold mergeAt
  cases hf : e.syms.find? (fun s => s.1 == a) with
  | none => exact ⟨_, rfl⟩
  | some y =>
    obtain ⟨x, i⟩ := y
    obtain ⟨s, hs, h1, h2, h3⟩ := h x i hf
    simp only [hs, mergeNops_of h1 h2 h3]
    exact ⟨_, rfl⟩

theorem mergeAt_merged {e e' : Elf} {a} (h : mergeAt e a = .ok e') : Merged e' a := by
  rcases mergeAt_ok h with ⟨hf, rfl⟩ | ⟨x, i, s, hf, hs, h1, h2, h3, rfl⟩
  · intro x i h; rw [hf] at h; cases h
  · intro x' i' h
    simp only at h
    rw [hf] at h
    simp only [Option.some.injEq, Prod.mk.injEq] at h
    obtain ⟨-, rfl⟩ := h
    have hp := lt_of_get h3.1
    refine ⟨_, set_get hs _, h1, by simpa using h2, ?_, ?_⟩
    · simp only [nopOff_set h3]
      rw [List.getElem?_set, if_pos rfl, if_pos (by omega)]
    · simp only [nopOff_set h3]
      rw [List.getElem?_set, if_neg (by omega)]; exact h3.1

/-- Merging elsewhere keeps the bytes at the entry. -/
theorem mergeAt_keeps {e e' : Elf} {a b} (h : mergeAt e a = .ok e') (hab : a + 16 ≤ b ∨ b + 16 ≤ a)
    {i : Nat} {s : Section} (hs : e.secs[i]? = some s) (hb : s.addr ≤ b) :
    ∃ s', e'.secs[i]? = some s' ∧ s'.addr = s.addr ∧ s'.data.length = s.data.length
      ∧ nopOff s'.data (b - s.addr) = nopOff s.data (b - s.addr)
      ∧ s'.data[nopOff s.data (b - s.addr)]? = s.data[nopOff s.data (b - s.addr)]?
      ∧ s'.data[nopOff s.data (b - s.addr) + 1]? = s.data[nopOff s.data (b - s.addr) + 1]? := by
  rcases mergeAt_ok h with ⟨hf, rfl⟩ | ⟨x, j, t, hf, ht, h1, h2, h3, rfl⟩
  · exact ⟨s, hs, rfl, rfl, rfl, rfl, rfl⟩
  · by_cases hj : j = i
    · subst hj
      rw [hs, Option.some.injEq] at ht
      subst ht
      refine ⟨_, set_get hs _, rfl, by simp, nopOff_set h3 _, ?_, ?_⟩
      · have := nopOff_range s.data (b - s.addr)
        have := nopOff_range s.data (a - s.addr)
        simp only
        rw [List.getElem?_set, if_neg (by omega)]
      · have := nopOff_range s.data (b - s.addr)
        have := nopOff_range s.data (a - s.addr)
        simp only
        rw [List.getElem?_set, if_neg (by omega)]
    · exact ⟨s, by simp only [List.getElem?_set, if_neg hj]; exact hs, rfl, rfl, rfl, rfl, rfl⟩

theorem mergeAt_syms {e e' : Elf} {a} (h : mergeAt e a = .ok e') : e'.syms = e.syms := by
  rcases mergeAt_ok h with ⟨_, rfl⟩ | ⟨x, j, t, hf, ht, h1, h2, h3, rfl⟩ <;> rfl

theorem mergeAt_keeps_merged {e e' : Elf} {a b} (h : mergeAt e a = .ok e') (hab : a + 16 ≤ b ∨ b + 16 ≤ a)
    (hm : Merged e b) : Merged e' b := by
  intro x i hf
  rw [mergeAt_syms h] at hf
  obtain ⟨s, hs, h1, h2, h3, h4⟩ := hm x i hf
  obtain ⟨s', k1, k2, k3, k4, k5, k6⟩ := mergeAt_keeps h hab hs h1
  refine ⟨s', k1, by omega, by omega, ?_, ?_⟩ <;> rw [k2, k4]
  · rw [k5]; exact h3
  · rw [k6]; exact h4

theorem mergeAt_keeps_ready {e e' : Elf} {a b} (h : mergeAt e a = .ok e') (hab : a + 16 ≤ b ∨ b + 16 ≤ a)
    (hm : Ready e b) : Ready e' b := by
  intro x i hf
  rw [mergeAt_syms h] at hf
  obtain ⟨s, hs, h1, h2, h3⟩ := hm x i hf
  obtain ⟨s', k1, k2, k3, k4, k5, k6⟩ := mergeAt_keeps h hab hs h1
  refine ⟨s', k1, by omega, by omega, ?_⟩
  rw [k2, k4]
  unfold areNops at h3 ⊢
  rw [k5, k6]; exact h3

theorem merged_ready {e : Elf} {a} (h : Merged e a) : Ready e a := by
  intro x i hf
  obtain ⟨s, hs, h1, h2, h3, h4⟩ := h x i hf
  exact ⟨s, hs, h1, h2, h4, .inr h3⟩

theorem merged_stays {e : Elf} {a} (h : Merged e a) : mergeAt e a = .ok e := by
  unfold mergeAt
  cases hf : e.syms.find? (fun s => s.1 == a) with
  | none => rfl
  | some y =>
    obtain ⟨x, i⟩ := y
    obtain ⟨s, hs, h1, h2, h3, h4⟩ := h x i hf
    simp only [hs, mergeNops_of h1 h2 ⟨h4, .inr h3⟩]
    have e1 : s.data.set (nopOff s.data (a - s.addr)) 0x66 = s.data := by
      apply List.ext_getElem?
      intro k
      rw [List.getElem?_set]
      by_cases hk : nopOff s.data (a - s.addr) = k
      · subst hk; rw [if_pos rfl, if_pos (lt_of_get h3), h3]
      · rw [if_neg hk]
    have e2 : e.secs.set i s = e.secs := by
      apply List.ext_getElem?
      intro k
      rw [List.getElem?_set]
      by_cases hk : i = k
      · subst hk
        rw [if_pos rfl, hs, if_pos]
        apply Classical.byContradiction; intro hc
        rw [List.getElem?_eq_none (by omega)] at hs; cases hs
      · rw [if_neg hk]
    rw [e1]
    simp only [e2]

theorem fixup_merged {es : List Nat} {e e' : Elf} {done : List Nat} (hap : Apart (done ++ es))
    (hd : ∀ a ∈ done, Merged e (a + 14)) (h : fixup e es = .ok e') : ∀ a ∈ done ++ es, Merged e' (a + 14) := by
  induction es generalizing e done with
  | nil => simp only [fixup, Res.ok.injEq] at h; subst h; simpa using hd
  | cons a as ih =>
    simp only [fixup] at h
    cases hm : mergeAt e (a + 14) with
    | abort => rw [hm] at h; cases h
    | ub => rw [hm] at h; cases h
    | ok e1 =>
      rw [hm] at h
      have := ih (e := e1) (done := done ++ [a]) (by simpa using hap) (by
        intro b hb
        rcases List.mem_append.1 hb with hb | hb
        · rcases hap a (by simp) b (by simp [hb]) with rfl | hab
          · exact mergeAt_merged hm
          · exact mergeAt_keeps_merged hm (by omega) (hd b hb)
        · simp only [List.mem_singleton] at hb; subst hb; exact mergeAt_merged hm) h
      simpa using this

/-- C44, idempotent: running `ulp post` on what it produced changes nothing (and does not fail). -/
theorem C44_idempotent (e e' : Elf) (es : List Nat) (hap : Apart es) (h : fixup e es = .ok e') :
    fixup e' es = .ok e' := by
  have hm : ∀ a ∈ es, Merged e' (a + 14) := fixup_merged (done := []) hap (by simp) h
  clear h hap
  induction es with
  | nil => rfl
  | cons a as ih =>
    simp only [fixup, merged_stays (hm a (by simp))]
    exact ih (fun b hb => hm b (by simp [hb]))

/-- C44, total: if there are two NOPs, merged or not, at every entry that a symbol is found for, `ulp post` succeeds. -/
theorem C44_succeeds (e : Elf) (es : List Nat) (hap : Apart es) (hr : ∀ a ∈ es, Ready e (a + 14)) :
    ∃ e', fixup e es = .ok e' := by
  induction es generalizing e with
  | nil => exact ⟨e, rfl⟩
  | cons a as ih =>
    obtain ⟨e1, h1⟩ := mergeAt_of (hr a (by simp))
    obtain ⟨e', h'⟩ := ih e1 (fun x hx y hy => hap x (by simp [hx]) y (by simp [hy])) (by
      intro b hb
      rcases hap a (by simp) b (by simp [hb]) with rfl | hab
      · exact merged_ready (mergeAt_merged h1)
      · exact mergeAt_keeps_ready h1 (by omega) (hr b (by simp [hb])))
    exact ⟨e', by simp only [fixup, h1]; exact h'⟩

/-- A byte that is the first of the two NOPs at the entry (the address in `__patchable_function_entries` plus 14) of a
function, after an `endbr64` if it has one. -/
def EntryNop (s : Section) (es : List Nat) (o : Nat) : Prop :=
  s.data[o]? = some 0x90 ∧ s.data[o + 1]? = some 0x90 ∧
    ∃ a ∈ es, s.addr ≤ a + 14 ∧ ((isEndbr s.data (a + 14 - s.addr) ∧ s.addr + o = a + 14 + 4)
      ∨ (¬ isEndbr s.data (a + 14 - s.addr) ∧ s.addr + o = a + 14))

/-- C44, frame: `ulp post` changes nothing but, from 0x90 to 0x66, the first NOP of function entries. -/
theorem C44_frame (e e' : Elf) (es : List Nat) (h : fixup e es = .ok e') :
    e'.syms = e.syms ∧ e'.secs.length = e.secs.length ∧ ∀ (i : Nat) (s : Section), e.secs[i]? = some s →
      ∃ s', e'.secs[i]? = some s' ∧ s'.addr = s.addr ∧ s'.data.length = s.data.length
        ∧ ∀ o : Nat, s'.data[o]? = s.data[o]? ∨ (EntryNop s es o ∧ s'.data[o]? = some 0x66) := by
  suffices e'.syms = e.syms ∧ e'.secs.length = e.secs.length ∧ ∀ (i : Nat) (s : Section), e.secs[i]? = some s →
      ∃ s', e'.secs[i]? = some s' ∧ s'.addr = s.addr ∧ s'.data.length = s.data.length
        ∧ (∀ o, isEndbr s'.data o ↔ isEndbr s.data o)
        ∧ ∀ o : Nat, s'.data[o]? = s.data[o]? ∨ (EntryNop s es o ∧ s'.data[o]? = some 0x66) by
    refine ⟨this.1, this.2.1, fun i s hs => ?_⟩
    obtain ⟨s', k1, k2, k3, -, k5⟩ := this.2.2 i s hs
    exact ⟨s', k1, k2, k3, k5⟩
  induction es generalizing e with
  | nil =>
    simp only [fixup, Res.ok.injEq] at h; subst h
    exact ⟨rfl, rfl, fun i s hs => ⟨s, hs, rfl, rfl, fun _ => Iff.rfl, fun o => .inl rfl⟩⟩
  | cons a as ih =>
    simp only [fixup] at h
    cases hm : mergeAt e (a + 14) with
    | abort => rw [hm] at h; cases h
    | ub => rw [hm] at h; cases h
    | ok e1 =>
      rw [hm] at h
      obtain ⟨g1, g2, g3⟩ := ih e1 h
      have hl : e1.secs.length = e.secs.length := by
        rcases mergeAt_ok hm with ⟨_, rfl⟩ | ⟨x, j, t, hf, ht, h1, h2, h3, rfl⟩ <;> simp
      refine ⟨g1.trans (mergeAt_syms hm), g2.trans hl, fun i s hs => ?_⟩
      -- the section after the first merge
      have first : ∃ s1, e1.secs[i]? = some s1 ∧ s1.addr = s.addr ∧ s1.data.length = s.data.length
          ∧ (∀ o, isEndbr s1.data o ↔ isEndbr s.data o)
          ∧ ∀ o : Nat, s1.data[o]? = s.data[o]? ∨ (EntryNop s (a :: as) o ∧ s1.data[o]? = some 0x66) := by
        rcases mergeAt_ok hm with ⟨_, rfl⟩ | ⟨x, j, t, hf, ht, h1, h2, h3, rfl⟩
        · exact ⟨s, hs, rfl, rfl, fun _ => Iff.rfl, fun o => .inl rfl⟩
        · by_cases hj : j = i
          · subst hj
            rw [hs, Option.some.injEq] at ht
            subst ht
            refine ⟨_, set_get hs _, rfl, by simp, isEndbr_set h3, fun o => ?_⟩
            simp only
            rw [List.getElem?_set]
            by_cases ho : nopOff s.data (a + 14 - s.addr) = o
            · have hlt := lt_of_get h3.1
              rw [if_pos ho, if_pos (by omega)]
              rcases h3.2 with h90 | h66
              · refine .inr ⟨⟨by rw [← ho]; exact h90, by rw [← ho]; exact h3.1, a, by simp, h1, ?_⟩, rfl⟩
                unfold nopOff at ho
                by_cases hb : isEndbr s.data (a + 14 - s.addr)
                · rw [if_pos hb] at ho; exact .inl ⟨hb, by omega⟩
                · rw [if_neg hb] at ho; exact .inr ⟨hb, by omega⟩
              · left; rw [← ho, h66]
            · rw [if_neg ho]; exact .inl rfl
          · exact ⟨s, by simp only [List.getElem?_set, if_neg hj]; exact hs, rfl, rfl, fun _ => Iff.rfl, fun o => .inl rfl⟩
      obtain ⟨s1, k1, k2, k3, k4, k5⟩ := first
      obtain ⟨s', l1, l2, l3, l4, l5⟩ := g3 i s1 k1
      refine ⟨s', l1, l2.trans k2, l3.trans k3, fun o => (l4 o).trans (k4 o), fun o => ?_⟩
      rcases l5 o with hl5 | ⟨⟨q1, q2, b, hb, q3, q4⟩, q5⟩
      · rw [hl5]; exact k5 o
      · refine .inr ⟨?_, q5⟩
        have r1 : s.data[o]? = some 0x90 := by
          rcases k5 o with h | ⟨_, h⟩
          · rw [← h]; exact q1
          · rw [h] at q1; exact absurd q1 (by decide)
        have r2 : s.data[o + 1]? = some 0x90 := by
          rcases k5 (o + 1) with h | ⟨_, h⟩
          · rw [← h]; exact q2
          · rw [h] at q2; exact absurd q2 (by decide)
        rw [k2, k4] at q4
        exact ⟨r1, r2, b, by simp [hb], by omega, q4⟩

theorem at_get {m : Mem} {a : Nat} {l : List UInt8} (h : At m a l) {o : Nat} {x} (hx : l[o]? = some x) :
    m (a + o) = x := by
  unfold At at h
  have ho := lt_of_get hx
  have h2 := load_getElem m a l.length o (by simpa using ho)
  rw [← h2]
  rw [← h, List.getElem?_eq_getElem (by simpa using ho), Option.some.injEq] at hx
  exact hx

/-- C44, entries: once the library is loaded (at `base`), libpulp accepts every function that `ulp post` found a symbol
for as patchable, and calling it just goes on behind the NOPs. -/
theorem C44_entry (e e' : Elf) (es : List Nat) (hap : Apart es) (h : fixup e es = .ok e') (a : Nat) (ha : a ∈ es)
    (x i : Nat) (hf : e.syms.find? (fun s => s.1 == a + 14) = some (x, i)) (s' : Section) (hs : e'.secs[i]? = some s')
    (m : Mem) (base : Nat) (hm : At m (base + s'.addr) s'.data) (hb : base + a + 20 < 2 ^ 64) :
    patchable m (base + a + 14) = true
      ∧ X86.Spec.callDest m (base + a + 14) = some (X86.Spec.body m (base + a + 14)) := by
  have hmg := fixup_merged (done := []) (by simpa using hap) (by simp) h a (by simpa using ha)
  rw [← (C44_frame e e' es h).1] at hf
  obtain ⟨s, hs2, h1, h2, h3, h4⟩ := hmg x i hf
  rw [hs, Option.some.injEq] at hs2
  subst hs2
  have hp : Plain m (decide (isEndbr s'.data (a + 14 - s'.addr))) (base + a + 14) := by
    have g3 := at_get hm h3
    have g4 := at_get hm h4
    by_cases hb : isEndbr s'.data (a + 14 - s'.addr)
    · simp only [nopOff, if_pos hb] at g3 g4
      rw [decide_eq_true hb]
      obtain ⟨b1, b2, b3, b4⟩ := hb
      have b1 := at_get hm b1
      have b2 := at_get hm b2
      have b3 := at_get hm b3
      have b4 := at_get hm b4
      rw [show base + s'.addr + (a + 14 - s'.addr) = base + a + 14 by omega] at b1
      rw [show base + s'.addr + (a + 14 - s'.addr + 1) = base + a + 14 + 1 by omega] at b2
      rw [show base + s'.addr + (a + 14 - s'.addr + 2) = base + a + 14 + 2 by omega] at b3
      rw [show base + s'.addr + (a + 14 - s'.addr + 3) = base + a + 14 + 3 by omega] at b4
      rw [show base + s'.addr + (a + 14 - s'.addr + 4) = base + a + 14 + 4 by omega] at g3
      rw [show base + s'.addr + (a + 14 - s'.addr + 4 + 1) = base + a + 14 + 4 + 1 by omega] at g4
      refine ⟨fun _ => ?_, .inl ?_⟩
      · simp [Mem.load, X86.endbr64, b1, b2, b3, b4]
      · exact X86.load_two (by simpa [bias] using g3) (by simpa [bias] using g4)
    · simp only [nopOff, if_neg hb] at g3 g4
      rw [decide_eq_false hb]
      rw [show base + s'.addr + (a + 14 - s'.addr) = base + a + 14 by omega] at g3
      rw [show base + s'.addr + (a + 14 - s'.addr + 1) = base + a + 14 + 1 by omega] at g4
      refine ⟨fun h => absurd h (by decide), .inl ?_⟩
      exact X86.load_two (by simpa [bias] using g3) (by simpa [bias] using g4)
  refine ⟨plain_patchable hp, ?_⟩
  rw [callDest_plain (by omega) (by omega) hp, body_eq, plain_endbr hp]

/-- A library with two functions, one with `endbr64`, for which everything above applies. -/
def demo : Elf :=
  { secs := [⟨0, []⟩, ⟨0x1000, List.replicate 16 0x90 ++ [0xc3] ++ List.replicate 15 0xcc ++ List.replicate 14 0x90
      ++ [0xf3, 0x0f, 0x1e, 0xfa, 0x90, 0x90, 0xc3]⟩],
    syms := [(0, 0), (0x100e, 1), (0x102e, 1)] }

example : Apart [0x1000, 0x1020] := by intro a ha b hb; simp at ha hb; omega
example : ∃ e', fixup demo [0x1000, 0x1020] = .ok e' ∧ e' ≠ demo ∧ fixup e' [0x1000, 0x1020] = .ok e' := by
  refine ⟨_, rfl, by decide +kernel, by decide +kernel⟩
example : ∀ a ∈ [0x1000, 0x1020], Ready demo (a + 14) := by
  intro a ha x i h
  simp only [List.mem_cons, List.not_mem_nil, or_false] at ha
  rcases ha with rfl | rfl <;>
  · simp [demo] at h
    obtain ⟨rfl, rfl⟩ := h
    exact ⟨_, rfl, by decide +kernel⟩

/-- The hypothesis that symbols are in the section of the function matters: values of thread-local variables are offsets
into the TLS block, and a variable whose offset equals the address of a function, and which comes first in the table,
makes `ulp post` read outside of .tdata. -/
theorem C44_tls_symbol_confuses (text tdata : Section) (a : Nat) (rest : List (Nat × Nat)) (es : List Nat)
    (h : tdata.addr + tdata.data.length < a + 18 ∨ a + 14 < tdata.addr) :
    fixup ⟨[⟨0, []⟩, text, tdata], (a + 14, 2) :: rest⟩ (a :: es) = .ub := by
  simp only [fixup, mergeAt, List.find?_cons, beq_self_eq_true, List.getElem?_cons_succ, List.getElem?_cons_zero]
  have : mergeNops tdata (a + 14) = .ub := by
    unfold mergeNops; rw [if_pos (by omega)]
  rw [this]

/-! ### Further concrete cases -/

example : ∃ e', fixup demo [0x1000, 0x1020] = .ok e' ∧ e'.syms = demo.syms ∧ fixup e' [0x1000, 0x1020] = .ok e' :=
  ⟨_, rfl, (C44_frame demo _ [0x1000, 0x1020] rfl).1, C44_idempotent demo _ [0x1000, 0x1020] (by intro a ha b hb; simp at ha hb; omega) rfl⟩
example := C44_succeeds demo [0x1000, 0x1020] (by intro a ha b hb; simp at ha hb; omega) (by
  intro a ha x i h
  simp only [List.mem_cons, List.not_mem_nil, or_false] at ha
  rcases ha with rfl | rfl <;>
  · simp [demo] at h
    obtain ⟨rfl, rfl⟩ := h
    exact ⟨_, rfl, by decide +kernel⟩)
/-- The library mapped at 0x7000000: the second function, which begins with `endbr64`, is livepatchable there. -/
example (m : Mem) (s' : Section) (e' : Elf) (h : fixup demo [0x1000, 0x1020] = .ok e') (hs : e'.secs[1]? = some s')
    (hm : At m (0x7000000 + s'.addr) s'.data) : patchable m 0x700102e = true :=
  (C44_entry demo e' [0x1000, 0x1020] (by intro a ha b hb; simp at ha hb; omega) h 0x1020 (by decide) 0x102e 1 rfl s' hs m
    0x7000000 hm (by decide)).1
example := C44_tls_symbol_confuses ⟨0x1000, List.replicate 40 0x90⟩ ⟨0x4000, [0, 0, 0, 0]⟩ 0x1000 [] [] (.inr (by decide))

end Verif.Post
