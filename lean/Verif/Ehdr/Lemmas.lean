import Verif.Ehdr.Spec
import Verif.SelfWrite.Lemmas
import Verif.Names.Lemmas
import Verif.Text.Props

namespace Verif.Ehdr

theorem dropWhile_replicate (d : UInt8) (k : Nat) (s : Str) : (List.replicate k d ++ s).dropWhile (· == d) = s.dropWhile (· == d) := by
  induction k with
  | zero => rfl
  | succ k ih => rw [List.replicate_succ, List.cons_append, List.dropWhile_cons_of_pos (by simp), ih]

theorem dropWhile_start {d : UInt8} {s : Str} (h : s.head? ≠ some d) : s.dropWhile (· == d) = s := by
  cases s with
  | nil => rfl
  | cons c s =>
    rw [List.dropWhile_cons_of_neg]
    simp only [List.head?_cons, ne_eq, Option.some.injEq] at h
    simpa using h

theorem takeWhile_until {d : UInt8} {t r : Str} (h : d ∉ t) : (t ++ d :: r).takeWhile (· != d) = t := by
  rw [List.takeWhile_append_of_pos (fun x hx => by simp only [bne_iff_ne, ne_eq]; rintro rfl; exact h hx), List.takeWhile_cons_of_neg (by simp),
    List.append_nil]

theorem dropWhile_until {d : UInt8} {t r : Str} (h : d ∉ t) : (t ++ d :: r).dropWhile (· != d) = d :: r := by
  rw [List.dropWhile_append_of_pos (fun x hx => by simp only [bne_iff_ne, ne_eq]; rintro rfl; exact h hx), List.dropWhile_cons_of_neg (by simp)]

theorem takeWhile_end {d : UInt8} {t : Str} (h : d ∉ t) : t.takeWhile (· != d) = t := by
  have := List.takeWhile_append_of_pos (l₁ := t) (l₂ := []) (p := (· != d)) (fun x hx => by simp only [bne_iff_ne, ne_eq]; rintro rfl; exact h hx)
  simpa using this

theorem tok_column {d : UInt8} {t r : Str} (h0 : t ≠ []) (h : d ∉ t) : tok d (t ++ [d] ++ r) = some (t, r) := by
  unfold tok
  rw [List.append_assoc, List.singleton_append]
  rw [dropWhile_start (by
    cases t with
    | nil => exact absurd rfl h0
    | cons c t => simp only [List.cons_append, List.head?_cons, ne_eq, Option.some.injEq]; rintro rfl; exact h List.mem_cons_self)]
  dsimp only
  rw [if_neg (by simp), takeWhile_until h, dropWhile_until h]
  rfl

theorem tok_path {pad : Nat} {s : Str} (h0 : s ≠ []) (h : s.head? ≠ some 32) :
    (tok 32 (List.replicate pad 32 ++ s)).map (·.1) = some (s.takeWhile (· != 32)) := by
  unfold tok
  rw [dropWhile_replicate, dropWhile_start h]
  dsimp only
  rw [if_neg h0]
  rfl

theorem hex8_no {n : Nat} {c : UInt8} (hc : SelfWrite.hexVal c = none) : c ∉ SelfWrite.hex8 n := by
  intro h
  have := SelfWrite.isHex_hexVal (SelfWrite.hex8_isHex n c h)
  rw [hc] at this
  cases this

theorem hex8_ne {n : Nat} : SelfWrite.hex8 n ≠ [] := by
  intro h
  have := SelfWrite.hex8_length n
  rw [h] at this
  simp at this

theorem strtoul16_hex8_end {n : Nat} (hn : n < 2 ^ 64) : (SelfWrite.strtoul16 (SelfWrite.hex8 n)).1 = n := by
  have hl := SelfWrite.hex8_length n
  have hi := SelfWrite.hex8_isHex n
  have hr : (SelfWrite.hexRun 0 (SelfWrite.hex8 n)).1 = n := by
    have := SelfWrite.hexRun_hex8 n []
    rw [List.append_nil] at this
    rw [this]; rfl
  rcases hh : SelfWrite.hex8 n with _ | ⟨x, _ | ⟨y, l⟩⟩
  · simp [hh] at hl
  · simp [hh] at hl
  · rw [hh] at hi hr
    have hx := hi x (by simp)
    have hy := hi y (by simp)
    unfold SelfWrite.strtoul16
    have hd : (x :: y :: l).dropWhile SelfWrite.isSpace = x :: y :: l := by
      simp [List.dropWhile, SelfWrite.isHex_not_space hx]
    rw [hd, SelfWrite.sign_hex hx]
    simp only [SelfWrite.skip0x_hex hy]
    have hv := SelfWrite.isHex_hexVal hx
    rw [if_neg (by simpa [Option.isNone_iff_eq_none, Option.isSome_iff_ne_none] using hv), hr]
    rw [if_neg (by omega)]
    simp

/-- What is looked at of the path. -/
def piece (path : Str) : Str := (path ++ [10]).takeWhile (· != 32)

theorem pathTok_line {m : Mapping} (h : m.Valid) :
    pathTok (SelfWrite.hex8 m.stop ++ [32] ++ m.perms ++ [32] ++ m.offset ++ [32] ++ m.device ++ [32] ++ m.inode ++ [32] ++
      List.replicate m.pad 32 ++ m.path ++ [10]) = some (piece m.path) := by
  have hp : (m.path ++ [10]).head? ≠ some 32 := by
    have := h.path.2
    cases hm : m.path with
    | nil => simp
    | cons c s => rw [hm] at this; simpa using this
  have e := tok_path (pad := m.pad) (s := m.path ++ [10]) (by simp) hp
  unfold pathTok
  simp only [List.append_assoc] at e ⊢
  rw [← List.append_assoc (SelfWrite.hex8 m.stop), tok_column hex8_ne (hex8_no (by decide))]
  simp only [Option.bind_eq_bind, Option.bind_some]
  rw [← List.append_assoc m.perms, tok_column h.perms.1 h.perms.2]
  simp only [Option.bind_some]
  rw [← List.append_assoc m.offset, tok_column h.offset.1 h.offset.2]
  simp only [Option.bind_some]
  rw [← List.append_assoc m.device, tok_column h.device.1 h.device.2]
  simp only [Option.bind_some]
  rw [← List.append_assoc m.inode, tok_column h.inode.1 h.inode.2]
  simp only [Option.bind_some]
  cases ht : tok 32 (List.replicate m.pad 32 ++ (m.path ++ [10])) with
  | none => rw [ht] at e; cases e
  | some x => rw [ht] at e; simpa [piece] using e

theorem look_line {m : Mapping} (h : m.Valid) (main : Str) : look main m.line =
    match (getBasename (piece m.path)).getLast? with
    | none => .undefined
    | some c => if (if c = 10 then (getBasename (piece m.path)).dropLast else getBasename (piece m.path)) = main then .found m.start else .other := by
  have e := pathTok_line h
  unfold look Mapping.line
  simp only [List.append_assoc] at e ⊢
  rw [← List.append_assoc (SelfWrite.hex8 m.start), tok_column hex8_ne (hex8_no (by decide))]
  dsimp only
  rw [e]
  dsimp only
  rw [strtoul16_hex8_end h.start]
  cases (getBasename (piece m.path)).getLast? <;> rfl

theorem last_iff {path name : Str} : Last path name ↔ getBasename path = name := by
  constructor
  · rintro ⟨h1, rfl | ⟨d, rfl⟩⟩
    · exact Text.C40_basename_unique [] path h1 (.inl rfl)
    · exact Text.C40_basename_unique (d ++ [47]) name h1 (.inr ⟨d, rfl⟩)
  · rintro rfl
    obtain ⟨dir, h1, h2, h3⟩ := Text.C40_basename path
    refine ⟨h2, ?_⟩
    rcases h3 with rfl | ⟨d, rfl⟩
    · exact .inl (by simpa using h1)
    · exact .inr ⟨d, h1⟩

theorem look_whole {m : Mapping} (h : m.Valid) (hb : 32 ∉ m.path) (main : Str) :
    look main m.line = if getBasename m.path = main then .found m.start else .other := by
  rw [look_line h]
  have e1 : piece m.path = m.path ++ [10] := takeWhile_end (by simp [hb])
  have hl := (last_iff (path := m.path)).mpr rfl
  have e2 : getBasename (piece m.path) = getBasename m.path ++ [10] := by
    rw [e1]
    generalize hn : getBasename m.path = n at hl
    obtain ⟨h1, h2 | ⟨d, h2⟩⟩ := hl
    · rw [h2]; exact Text.C40_basename_unique [] _ (by simp [h1]) (.inl rfl)
    · rw [h2, List.append_assoc]; exact Text.C40_basename_unique (d ++ [47]) _ (by simp [h1]) (.inr ⟨d, rfl⟩)
  rw [e2]
  simp

theorem look_cut {m : Mapping} (h : m.Valid) {p q : Str} (e : m.path = p ++ 32 :: q) (hb : 32 ∉ p) (main : Str) :
    look main m.line = if getBasename p = [] then .undefined else if getBasename p = main then .found m.start else .other := by
  rw [look_line h]
  have e1 : piece m.path = p := by
    unfold piece
    rw [e, List.append_assoc, List.cons_append]
    exact takeWhile_until hb
  rw [e1]
  by_cases h0 : getBasename p = []
  · rw [if_pos h0, h0]; rfl
  · rw [if_neg h0]
    rw [List.getLast?_eq_some_getLast h0]
    dsimp only
    have hc : ¬ (getBasename p).getLast h0 = 10 := by
      intro hc
      have hm := List.getLast_mem h0
      rw [hc] at hm
      have : (10 : UInt8) ∈ p := List.mem_of_mem_drop hm
      exact h.path.1 (by rw [e]; simp [this])
    rw [if_neg hc]

/-- Where a path with a blank has the first one. -/
theorem first_blank {s : Str} (h : 32 ∈ s) : ∃ p q, s = p ++ 32 :: q ∧ 32 ∉ p := by
  obtain ⟨p, q, h1, h2⟩ := List.eq_append_cons_of_mem h
  exact ⟨p, q, h1, h2⟩

theorem lookAll_other {main : Str} {ls rest : List Str} (h : ∀ l ∈ ls, look main l = .other) : lookAll main (ls ++ rest) = lookAll main rest := by
  induction ls with
  | nil => rfl
  | cons l ls ih =>
    rw [List.cons_append, lookAll, h l List.mem_cons_self]
    exact ih fun x hx => h x (List.mem_cons_of_mem _ hx)

theorem deleted_eq : " (deleted)".toUTF8.toList = 32 :: "(deleted)".toUTF8.toList := by decide +kernel

theorem noblank_look {m : Mapping} (h : m.Valid) (hb : NoBlank m.path) {main : Str} (hn : 32 ∉ main) :
    (m.Of main → look main m.line = .found m.start) ∧ (¬ m.Of main → look main m.line = .other) := by
  unfold Mapping.Of
  rcases hb with hb | ⟨p, hp, hb, hl⟩
  · rw [look_whole h hb]
    have : ¬ ∃ p, m.path = p ++ " (deleted)".toUTF8.toList ∧ Last p main := by
      rintro ⟨p, e, _⟩
      rw [e, deleted_eq] at hb
      simp at hb
    refine ⟨fun ho => ?_, fun ho => ?_⟩
    · rw [if_pos (last_iff.mp (ho.resolve_right this))]
    · rw [if_neg fun e => ho (.inl (last_iff.mpr e))]
  · have hp' : m.path = p ++ 32 :: "(deleted)".toUTF8.toList := by rw [hp, deleted_eq]
    have hne : getBasename p ≠ [] := by
      intro e
      obtain ⟨_, e | ⟨d, e⟩⟩ := last_iff.mpr e
      · have := h.path.2
        rw [hp', e] at this
        simp at this
      · rw [e] at hl
        simp at hl
    have h1 : ¬ Last m.path main := by
      intro hl
      have e := last_iff.mp hl
      obtain ⟨h47, e2⟩ := last_iff.mpr (rfl : getBasename p = getBasename p)
      have hin : (47 : UInt8) ∉ getBasename p ++ " (deleted)".toUTF8.toList := by
        rw [List.mem_append]
        rintro (h | h)
        · exact h47 h
        · exact absurd h (by decide +kernel)
      have e3 : getBasename m.path = getBasename p ++ " (deleted)".toUTF8.toList := by
        rcases e2 with e2 | ⟨d, e2⟩
        · rw [hp]
          generalize getBasename p = b at e2 hin ⊢
          rw [e2]
          exact Text.C40_basename_unique [] _ hin (.inl rfl)
        · rw [hp]
          generalize getBasename p = b at e2 hin ⊢
          rw [e2, List.append_assoc (d ++ [47])]
          exact Text.C40_basename_unique (d ++ [47]) _ hin (.inr ⟨d, rfl⟩)
      rw [← e, e3, deleted_eq] at hn
      simp at hn
    rw [look_cut h hp' hb, if_neg hne]
    refine ⟨fun ho => ?_, fun ho => ?_⟩
    · obtain ⟨p', e, hl'⟩ := ho.resolve_left h1
      rw [hp] at e
      have := List.append_cancel_right e
      subst this
      rw [if_pos (last_iff.mp hl')]
    · rw [if_neg fun e => ho (.inr ⟨p, hp, last_iff.mpr e⟩)]

end Verif.Ehdr
