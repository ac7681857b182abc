import Verif.Setup.Spec

namespace Verif.Setup

open Spec

/-! ### Jobs -/

def tokens (k : Nat) : Str := (List.replicate k [48, 48, 48]).flatten

theorem tokens_succ (k : Nat) : tokens (k + 1) = 48 :: 48 :: 48 :: tokens k := by simp [tokens, List.replicate_succ]

theorem tokens_append (k : Nat) : tokens k ++ [48, 48, 48] = tokens (k + 1) := by
  induction k with
  | zero => rfl
  | succ k ih => rw [tokens_succ, tokens_succ, ← ih]; rfl

/-- What holds at all times. -/
structure Inv (n : Nat) (dirs : List (List Nat)) (c : Conf) : Prop where
  stopped : c.stopped = none
  vars : c.started = 0 ∧ c.endedVar = 0
  pipe : ∃ k, c.pipe = tokens k ∧ k + c.running.length = n
  all : (c.ended ++ c.running ++ c.todo ++ c.dirs.flatten).Perm dirs.flatten

theorem inv_start (n : Nat) (dirs : List (List Nat)) : Inv n dirs (start n dirs) :=
  ⟨rfl, ⟨rfl, rfl⟩, ⟨n, rfl, rfl⟩, by simp [start]⟩

theorem status_zero : code3 (jobStatus 0 0) = [48, 48, 48] := by decide +kernel

theorem zero_zero : isZero [48, 48, 48] = true := by decide +kernel

theorem inv_step {cmd n dirs c d} (h : Inv n dirs c) (hs : Step cmd c d) : Inv n dirs d := by
  obtain ⟨h1, h2, ⟨k, h3, h4⟩, h5⟩ := h
  cases hs with
  | @take l t x y z p hn ht hp hz =>
    rw [h3] at hp
    cases k with
    | zero => simp [tokens] at hp
    | succ k =>
      rw [tokens_succ] at hp
      simp only [List.cons.injEq] at hp
      refine ⟨h1, h2, ⟨k, hp.2.2.2.symm, by simp only [List.length_append, List.length_singleton]; omega⟩, ?_⟩
      rw [ht] at h5
      simpa using h5
  | @stop l t x y z p hn ht hp hz =>
    rw [h3] at hp
    cases k with
    | zero => simp [tokens] at hp
    | succ k =>
      rw [tokens_succ] at hp
      simp only [List.cons.injEq] at hp
      rw [← hp.1, ← hp.2.1, ← hp.2.2.1, zero_zero] at hz
      simp at hz
  | @finish l r₁ r₂ hr =>
    refine ⟨h1, h2, ⟨k + 1, ?_, ?_⟩, ?_⟩
    · show c.pipe ++ code3 (jobStatus c.started (cmd l)) = _
      rw [h2.1, show code3 (jobStatus 0 (cmd l)) = [48, 48, 48] from status_zero, h3, tokens_append]
    · rw [hr] at h4
      simp only [List.length_append, List.length_cons] at h4 ⊢
      omega
    · rw [hr] at h5
      refine List.Perm.trans ?_ h5
      simp only [List.append_assoc, List.cons_append, List.nil_append]
      exact List.Perm.append_left _ (List.perm_middle.symm)
  | @next d ds hn ht hr hd =>
    refine ⟨h1, h2, ⟨k, h3, h4⟩, ?_⟩
    rw [ht, hd] at h5
    simpa using h5

theorem inv_steps {cmd n dirs m c d} (h : Inv n dirs c) (hs : Steps cmd m c d) : Inv n dirs d := by
  induction hs with
  | refl => exact h
  | tail _ h2 ih => exact inv_step (ih h) h2

/-- What is left to do. -/
def left (c : Conf) : Nat := 2 * c.dirs.flatten.length + 2 * c.todo.length + c.running.length + c.dirs.length

theorem left_step {cmd n dirs c d} (h : Inv n dirs c) (hs : Step cmd c d) : left d + 1 = left c := by
  have hd := inv_step h hs
  cases hs with
  | take hn ht hp hz =>
    simp only [left, ht, List.length_append, List.length_cons, List.length_nil]
    omega
  | stop => exact absurd hd.stopped (by simp)
  | finish hr =>
    simp only [left, hr, List.length_append, List.length_cons]
    omega
  | next hn ht hr hds =>
    simp only [left, ht, hds, List.flatten_cons, List.length_append, List.length_cons, List.length_nil]
    omega

theorem left_steps {cmd n dirs m c d} (h : Inv n dirs c) (hs : Steps cmd m c d) : m + left d = left c := by
  induction hs with
  | refl => simp
  | tail h1 h2 ih => have := left_step (inv_steps h h1) h2; have := ih h; omega

theorem progress {n dirs c} (cmd : Nat → Nat) (hn : 1 ≤ n) (h : Inv n dirs c) (hf : ¬ Finished c) : ∃ d, Step cmd c d := by
  obtain ⟨h1, h2, ⟨k, h3, h4⟩, h5⟩ := h
  cases hr : c.running with
  | cons l r => exact ⟨_, .finish (r₁ := []) hr⟩
  | nil =>
    cases ht : c.todo with
    | cons l t =>
      obtain ⟨k, rfl⟩ : ∃ j, k = j + 1 := ⟨k - 1, by rw [hr] at h4; simp at h4; omega⟩
      rw [tokens_succ] at h3
      exact ⟨_, .take h1 ht h3 zero_zero⟩
    | nil =>
      cases hd : c.dirs with
      | nil => exact absurd ⟨hd, ht, hr⟩ hf
      | cons d ds => exact ⟨_, .next h1 ht hr hd⟩

theorem steps_end {cmd n dirs} (hn : 1 ≤ n) : ∀ (k : Nat) (m : Nat) (s c : Conf), Inv n dirs s → Steps cmd m s c → left c = k →
    ∃ m' d, Steps cmd m' s d ∧ Finished d := by
  intro k
  induction k with
  | zero =>
    intro m s c hi hs hl
    refine ⟨m, c, hs, Classical.byContradiction fun hf => ?_⟩
    obtain ⟨d, hd⟩ := progress cmd hn (inv_steps hi hs) hf
    have := left_step (inv_steps hi hs) hd
    omega
  | succ k ih =>
    intro m s c hi hs hl
    by_cases hf : Finished c
    · exact ⟨m, c, hs, hf⟩
    · obtain ⟨d, hd⟩ := progress cmd hn (inv_steps hi hs) hf
      have := left_step (inv_steps hi hs) hd
      exact ih (m + 1) s d hi (.tail hs hd) (by omega)

/-! ### Lines -/

theorem takeWhile_blank {q r : Str} (h : 32 ∉ q) : (q ++ 32 :: r).takeWhile (· != 32) = q := by
  rw [List.takeWhile_append_of_pos]
  · simp
  · intro a ha
    have : a ≠ 32 := fun e => h (e ▸ ha)
    simpa using this

theorem dropWhile_blank {q r : Str} (h : 32 ∉ q) : (q ++ 32 :: r).dropWhile (· != 32) = 32 :: r := by
  rw [List.dropWhile_append_of_pos]
  · simp
  · intro a ha
    have : a ≠ 32 := fun e => h (e ▸ ha)
    simpa using this

theorem split_blank {a b r s : Str} (ha : 32 ∉ a) (hb : 32 ∉ b) (h : a ++ 32 :: r = b ++ 32 :: s) : a = b ∧ r = s := by
  have h1 := congrArg (List.takeWhile (· != 32)) h
  rw [takeWhile_blank ha, takeWhile_blank hb] at h1
  subst h1
  exact ⟨rfl, by simpa using h⟩

theorem matchHere_iff (name arch s : Str) : matchHere name arch s = true ↔
    ∃ r, s = name ++ 32 :: r ∧ r.takeWhile (· != 32) ≠ [] ∧ 32 :: arch <+: r.dropWhile (· != 32) := by
  unfold matchHere
  rw [Bool.and_eq_true, List.isPrefixOf_iff_prefix]
  constructor
  · rintro ⟨⟨t, rfl⟩, h⟩
    rw [List.drop_left] at h
    cases t with
    | nil => simp at h
    | cons c r =>
      simp only [Bool.and_eq_true, beq_iff_eq, List.isPrefixOf_iff_prefix, bne_iff_ne] at h
      obtain ⟨⟨rfl, h1⟩, h2⟩ := h
      exact ⟨r, rfl, h1, h2⟩
  · rintro ⟨r, rfl, h1, h2⟩
    refine ⟨List.prefix_append _ _, ?_⟩
    rw [List.drop_left]
    simp only [Bool.and_eq_true, beq_iff_eq, List.isPrefixOf_iff_prefix, bne_iff_ne]
    exact ⟨⟨by trivial, h1⟩, by simpa using h2⟩

theorem grep_iff (name arch : Str) (s : Str) : grep name arch s = true ↔ ∃ t, t <:+ s ∧ matchHere name arch t = true := by
  induction s with
  | nil => simp [grep]
  | cons c s ih =>
    simp only [grep, Bool.or_eq_true, ih]
    constructor
    · rintro (h | ⟨t, h, hm⟩)
      · exact ⟨_, List.suffix_refl _, h⟩
      · exact ⟨t, h.trans (List.suffix_cons c s), hm⟩
    · rintro ⟨t, h, hm⟩
      rcases List.suffix_cons_iff.mp h with rfl | h
      · exact .inl hm
      · exact .inr ⟨t, h, hm⟩

/-- A text with one blank at most is not matched. -/
theorem no_match {name arch t q r : Str} (ht : t <:+ q ++ 32 :: r) (hq : 32 ∉ q) (hr : 32 ∉ r) (hn : 32 ∉ name) :
    matchHere name arch t = false := by
  rw [← Bool.not_eq_true, matchHere_iff]
  rintro ⟨s, rfl, -, h2⟩
  obtain ⟨p, hp⟩ := ht
  rw [← List.append_assoc] at hp
  have hs : ∃ u v, s = u ++ 32 :: v := by
    obtain ⟨w, hw⟩ := h2
    exact ⟨s.takeWhile (· != 32), arch ++ w, by
      have := List.takeWhile_append_dropWhile (p := (· != 32)) (l := s)
      rw [← hw] at this
      simpa using this.symm⟩
  obtain ⟨u, v, rfl⟩ := hs
  have hc := congrArg (List.count 32) hp
  simp only [List.count_append, List.count_cons, List.count_eq_zero.mpr hq, List.count_eq_zero.mpr hr] at hc
  simp at hc
  omega

theorem grep_line {name arch : Str} (hn : 32 ∉ name) (p : Pack) (hp : Plain p) :
    grep name arch p.line = true ↔ name <:+ p.name ∧ arch <+: p.arch := by
  obtain ⟨-, he, ⟨b1, b2, b3⟩, -⟩ := hp
  have hline : p.line = p.name ++ 32 :: (p.evr ++ 32 :: p.arch) := by simp [Pack.line]
  rw [grep_iff, hline]
  constructor
  · rintro ⟨t, ht, hm⟩
    obtain ⟨q, hq⟩ := ht
    rcases List.append_eq_append_iff.mp hq with ⟨m, h1, h2⟩ | ⟨m, h1, h2⟩
    · -- begins within the name of the package
      rw [matchHere_iff] at hm
      obtain ⟨r, hr, h3, h4⟩ := hm
      rw [h2] at hr
      have hmn : 32 ∉ m := fun h => b1 (by rw [h1]; exact List.mem_append_right _ h)
      obtain ⟨rfl, rfl⟩ := split_blank hmn hn hr
      rw [dropWhile_blank b2] at h4
      refine ⟨⟨q, h1.symm⟩, ?_⟩
      simpa using h4
    · cases m with
      | nil =>
        simp only [List.nil_append] at h2
        rw [matchHere_iff] at hm
        obtain ⟨r, hr, h3, h4⟩ := hm
        rw [← h2] at hr
        obtain ⟨rfl, rfl⟩ := split_blank (a := []) (by simp) hn hr
        rw [dropWhile_blank b2] at h4
        exact ⟨List.nil_suffix, by simpa using h4⟩
      | cons x m =>
        simp only [List.cons_append, List.cons.injEq] at h2
        rw [no_match ⟨m, h2.2.symm⟩ b2 b3 hn] at hm
        simp at hm
  · rintro ⟨⟨q, hq⟩, ⟨w, hw⟩⟩
    refine ⟨name ++ 32 :: (p.evr ++ 32 :: p.arch), ⟨q, by rw [← hq]; simp⟩, ?_⟩
    rw [matchHere_iff]
    refine ⟨_, rfl, ?_, ?_⟩
    · rw [takeWhile_blank b2]; exact he
    · rw [dropWhile_blank b2, ← hw]; exact ⟨w, rfl⟩

/-! ### Names -/

theorem replaceFirst_append {c r : UInt8} {a s : Str} (h : c ∉ a) :
    replaceFirst c r (a ++ c :: s) = a ++ r :: s := by
  induction a with
  | nil => simp [replaceFirst]
  | cons x a ih =>
    simp only [List.mem_cons, not_or] at h
    simp only [List.cons_append, replaceFirst]
    rw [if_neg (fun e => h.1 e.symm), ih h.2]

theorem fields_append {a s : Str} (h : 59 ∉ a) : fields (a ++ 59 :: s) = a :: fields s := by
  induction a with
  | nil => simp [fields]
  | cons x a ih =>
    simp only [List.mem_cons, not_or] at h
    simp only [List.cons_append, fields]
    rw [if_neg (fun e => h.1 e.symm), ih h.2]

theorem nevra_eq (p : Pack) : p.nevra = p.name ++ 59 :: (p.evr ++ 59 :: p.arch) := by simp [Pack.nevra]

theorem filename_nevra {p : Pack} (hp : Plain p) :
    filename p.nevra = p.name ++ [45] ++ p.evr ++ [46] ++ p.arch ++ Cli.b ".rpm" := by
  obtain ⟨s1, s2, -⟩ := hp.noSemi
  unfold filename
  rw [nevra_eq, replaceFirst_append s1]
  have : p.name ++ 45 :: (p.evr ++ 59 :: p.arch) = (p.name ++ 45 :: p.evr) ++ 59 :: p.arch := by simp
  rw [this, replaceFirst_append (by simp; exact ⟨s1, s2⟩)]
  simp

/-- The last of a letter splits a text in one way. -/
theorem split_last {c : UInt8} {a b r s : Str} (hr : c ∉ r) (hs : c ∉ s) (h : a ++ c :: r = b ++ c :: s) : a = b ∧ r = s := by
  rcases List.append_eq_append_iff.mp h with ⟨m, h1, h2⟩ | ⟨m, h1, h2⟩
  · cases m with
    | nil => simp at h1 h2; exact ⟨h1.symm, h2⟩
    | cons x m =>
      simp only [List.cons_append, List.cons.injEq] at h2
      exact absurd (by rw [h2.2]; simp) hr
  · cases m with
    | nil => simp at h1 h2; exact ⟨h1, h2.symm⟩
    | cons x m =>
      simp only [List.cons_append, List.cons.injEq] at h2
      exact absurd (by rw [h2.2]; simp) hs

/-! ### Age -/

theorem textLess_append {a b : Str} (x y : UInt8) (h : a.length = b.length) :
    textLess (a ++ [x]) (b ++ [y]) = (textLess a b || (a == b && decide (x < y))) := by
  induction a generalizing b with
  | nil =>
    cases b with
    | nil => simp [textLess]
    | cons _ _ => simp at h
  | cons u a ih =>
    cases b with
    | nil => simp at h
    | cons v b =>
      simp only [List.cons_append, textLess]
      rw [ih (by simpa using h)]
      by_cases e : u = v
      · subst e; simp
      · have : (u == v) = false := by simpa using e
        simp [this, e]

theorem dec_small {n : Nat} (h : n < 10) : dec n = [(48 + n).toUInt8] := by rw [dec, if_pos h]

theorem dec_big {n : Nat} (h : 10 ≤ n) : dec n = dec (n / 10) ++ [(48 + n % 10).toUInt8] := by rw [dec, if_neg (by omega)]

theorem digit_lt {a b : Nat} (ha : a < 10) (hb : b < 10) : (48 + a).toUInt8 < (48 + b).toUInt8 ↔ a < b := by
  rw [UInt8.lt_iff_toNat_lt]
  simp only [Nat.toUInt8, UInt8.toNat_ofNat']
  rw [Nat.mod_eq_of_lt (by omega), Nat.mod_eq_of_lt (by omega)]
  omega

theorem digit_eq {a b : Nat} (ha : a < 10) (hb : b < 10) : (48 + a).toUInt8 = (48 + b).toUInt8 ↔ a = b := by
  rw [← UInt8.toNat_inj]
  simp only [Nat.toUInt8, UInt8.toNat_ofNat']
  rw [Nat.mod_eq_of_lt (by omega), Nat.mod_eq_of_lt (by omega)]
  omega

theorem dec_length (k : Nat) : ∀ n, 10 ^ k ≤ n → n < 10 ^ (k + 1) → (dec n).length = k + 1 := by
  induction k with
  | zero => intro n h1 h2; rw [dec_small (by omega)]; rfl
  | succ k ih =>
    intro n h1 h2
    have h10 : 10 ≤ n := by have : 10 ^ (k + 1) = 10 * 10 ^ k := by rw [Nat.pow_succ]; omega
                            have : 0 < 10 ^ k := Nat.pos_of_ne_zero (by simp)
                            omega
    rw [dec_big h10, List.length_append, ih (n / 10)]
    · rfl
    · rw [Nat.le_div_iff_mul_le (by omega)]; rw [Nat.pow_succ] at h1; exact h1
    · rw [Nat.div_lt_iff_lt_mul (by omega)]; rw [Nat.pow_succ] at h2; exact h2

theorem dec_inj : ∀ n m, dec n = dec m → n = m := by
  intro n
  induction n using Nat.strongRecOn with
  | _ n ih =>
    intro m h
    by_cases h1 : n < 10
    · by_cases h2 : m < 10
      · rw [dec_small h1, dec_small h2] at h
        simp only [List.cons.injEq, and_true] at h
        exact (digit_eq h1 h2).mp h
      · rw [dec_small h1, dec_big (by omega)] at h
        have := congrArg List.length h
        simp at this
        by_cases h3 : m / 10 < 10
        · rw [dec_small h3] at this; simp at this
        · rw [dec_big (by omega)] at this; simp at this
    · by_cases h2 : m < 10
      · rw [dec_small h2, dec_big (by omega)] at h
        have := congrArg List.length h
        simp at this
        by_cases h3 : n / 10 < 10
        · rw [dec_small h3] at this; simp at this
        · rw [dec_big (by omega)] at this; simp at this
      · rw [dec_big (n := n) (by omega), dec_big (n := m) (by omega)] at h
        obtain ⟨h3, h4⟩ := List.append_inj' h rfl
        simp only [List.cons.injEq, and_true] at h4
        have h5 := ih (n / 10) (by omega) _ h3
        have h6 := (digit_eq (by omega) (by omega)).mp h4
        omega

theorem textLess_dec (k : Nat) : ∀ n m, 10 ^ k ≤ n → n < 10 ^ (k + 1) → 10 ^ k ≤ m → m < 10 ^ (k + 1) →
    (textLess (dec n) (dec m) = true ↔ n < m) := by
  induction k with
  | zero =>
    intro n m h1 h2 h3 h4
    rw [dec_small (by omega), dec_small (by omega), ← digit_lt (a := n) (b := m) (by omega) (by omega)]
    simp [textLess]
  | succ k ih =>
    intro n m h1 h2 h3 h4
    have hp : 10 ^ (k + 1) = 10 * 10 ^ k := by rw [Nat.pow_succ]; omega
    have hq : 10 ^ (k + 1 + 1) = 10 * 10 ^ (k + 1) := by rw [Nat.pow_succ]; omega
    have h0 : 0 < 10 ^ k := Nat.pos_of_ne_zero (by simp)
    have a1 : 10 ^ k ≤ n / 10 := by omega
    have a2 : n / 10 < 10 ^ (k + 1) := by omega
    have b1 : 10 ^ k ≤ m / 10 := by omega
    have b2 : m / 10 < 10 ^ (k + 1) := by omega
    rw [dec_big (n := n) (by omega), dec_big (n := m) (by omega), textLess_append _ _ (by rw [dec_length k _ a1 a2, dec_length k _ b1 b2]),
      Bool.or_eq_true, Bool.and_eq_true, ih _ _ a1 a2 b1 b2, decide_eq_true_iff, digit_lt (by omega) (by omega), beq_iff_eq]
    constructor
    · rintro (h | ⟨h, h'⟩)
      · omega
      · have := dec_inj _ _ h; omega
    · intro h
      by_cases e : n / 10 = m / 10
      · exact .inr ⟨by rw [e], by omega⟩
      · exact .inl (by omega)

/-- The first digit of a number. -/
theorem dec_first (k d : Nat) (hd : 1 ≤ d) (hd' : d < 10) : ∀ n, d * 10 ^ k ≤ n → n < (d + 1) * 10 ^ k →
    ∃ s, dec n = (48 + d).toUInt8 :: s := by
  induction k with
  | zero =>
    intro n h1 h2
    have : n = d := by omega
    subst this
    exact ⟨[], dec_small hd'⟩
  | succ k ih =>
    intro n h1 h2
    have e1 : d * 10 ^ (k + 1) = 10 * (d * 10 ^ k) := by rw [Nat.pow_succ, ← Nat.mul_assoc]; omega
    have e2 : (d + 1) * 10 ^ (k + 1) = 10 * ((d + 1) * 10 ^ k) := by rw [Nat.pow_succ, ← Nat.mul_assoc]; omega
    have h0 : 0 < d * 10 ^ k := Nat.mul_pos hd (Nat.pos_of_ne_zero (by simp))
    obtain ⟨s, hs⟩ := ih (n / 10) (by omega) (by omega)
    rw [dec_big (by omega), hs]
    exact ⟨_, rfl⟩

end Verif.Setup
