import Verif.Diag.Spec
import Verif.Dsc.Props

namespace Verif.Diag

open Verif.Extract (SoInfo Sym getSymbol)
open Verif.Metadata (Ref)
open Verif.Dsc
open Verif.Diag.Spec

/-! ### The monad -/

@[simp] theorem bind_ok {α β : Type} (a : α) (f : α → Res β) : (Res.ok a >>= f) = f a := rfl
@[simp] theorem bind_err {α β : Type} (l c : Nat) (w : Why) (f : α → Res β) : ((Res.err l c w : Res α) >>= f) = .err l c w := rfl
@[simp] theorem bind_ub {α β : Type} (f : α → Res β) : ((Res.ub : Res α) >>= f) = .ub := rfl
@[simp] theorem pure_ok {α : Type} (a : α) : (pure a : Res α) = .ok a := rfl

theorem bind_err_iff {α β : Type} {m : Res α} {f : α → Res β} {l c : Nat} {w : Why} :
    (m >>= f) = .err l c w ↔ m = .err l c w ∨ ∃ a, m = .ok a ∧ f a = .err l c w := by
  cases m <;> simp

theorem bind_ok_iff {α β : Type} {m : Res α} {f : α → Res β} {b : β} : (m >>= f) = .ok b ↔ ∃ a, m = .ok a ∧ f a = .ok b := by
  cases m <;> simp

/-! ### Stages -/

theorem lacks_of {e : Env} {path x : Str} {f : File} {i : SoInfo} (h1 : e.fs path = some f) (h2 : f.info = some i) (h : getSymbol i x = none) : Lacks e path x :=
  ⟨f, i, h1, h2, fun s hs he => by simpa using List.find?_eq_none.mp h s hs |> fun k => k (by simpa using he)⟩

/-- What the place of a message has to do with the line `l` it is about. -/
structure Fits (e : Env) (l : Str) (col : Nat) (w : Why) : Prop where
  pos : 1 ≤ col
  le : col ≤ (bare l).length + 1
  miss : ∀ x p, w = .missing x p → (0 ∉ l → WordAt l col x) ∧ Lacks e p x
  exp : w = .expected → 0 ∉ l → ∃ a, bare l = a ++ [58] ∧ a.length + 1 = col

theorem fits_one {e : Env} {l : Str} {w : Why} (hm : ∀ x p, w ≠ .missing x p) (he : w ≠ .expected) : Fits e l 1 w :=
  ⟨Nat.le_refl _, by omega, fun x p h => absurd h (hm x p), fun h => absurd h he⟩

theorem openInfo_err {e : Env} {path : Str} {line col : Nat} {a b c : Why} {l' c' : Nat} {w : Why} (h : openInfo e path line col a b c = .err l' c' w) :
    l' = line ∧ c' = col ∧ (w = a ∨ w = b ∨ w = c) := by
  unfold openInfo at h
  grind

theorem openInfo_ok {e : Env} {path : Str} {line col : Nat} {a b c : Why} {i : SoInfo} (h : openInfo e path line col a b c = .ok i) :
    ∃ f, e.fs path = some f ∧ f.info = some i := by
  unfold openInfo at h
  grind

theorem readContainer_ok {e : Env} {n m : Nat} {ls ls' : List Str} {i : SoInfo} {p : Str} (h : readContainer e n ls = .ok (i, p, ls', m)) :
    ∃ pre, ls = pre ++ ls' ∧ m = n + pre.length ∧ (∀ ls'', readContainer e n (pre ++ ls'') = .ok (i, p, ls'', m)) ∧ ∃ f, e.fs p = some f ∧ f.info = some i := by
  induction ls generalizing n with
  | nil => simp [readContainer] at h
  | cons l ls ih =>
    rw [readContainer] at h
    split at h
    · next hl =>
      obtain ⟨pre, rfl, rfl, h3, h4⟩ := ih h
      refine ⟨l :: pre, rfl, by simp; omega, fun ls'' => ?_, h4⟩
      rw [List.cons_append, readContainer, if_pos hl, h3]
    · next hl =>
      obtain ⟨j, h1, h2⟩ := bind_ok_iff.mp h
      simp only [pure_ok, Res.ok.injEq, Prod.mk.injEq] at h2
      obtain ⟨rfl, rfl, rfl, rfl⟩ := h2
      refine ⟨[l], rfl, rfl, fun ls'' => ?_, openInfo_ok h1⟩
      rw [List.cons_append, readContainer, if_neg hl]
      simp only [h1]
      rfl

theorem readContainer_err {e : Env} {n : Nat} {ls : List Str} {k c : Nat} {w : Why} (h : readContainer e n ls = .err k c w) :
    (w = .empty ∧ k = n + ls.length + 1 ∧ c = 1) ∨
    ∃ pre l post, ls = pre ++ l :: post ∧ k = n + pre.length + 1 ∧ (∀ rest, readContainer e n (pre ++ l :: rest) = .err k c w) ∧
      (∀ rest, readContainer e n (pre ++ [10] :: rest) = readContainer e k rest) ∧ Fits e l c w ∧ w ≠ .empty := by
  induction ls generalizing n with
  | nil =>
    simp only [readContainer, Res.err.injEq] at h
    obtain ⟨rfl, rfl, rfl⟩ := h
    exact .inl ⟨rfl, by simp, rfl⟩
  | cons l ls ih =>
    rw [readContainer] at h
    split at h
    · next hl =>
      rcases ih h with ⟨h1, h2, h3⟩ | ⟨pre, l', post, rfl, rfl, h3, h4, h5⟩
      · exact .inl ⟨h1, by simp; omega, h3⟩
      · refine .inr ⟨l :: pre, l', post, rfl, by simp; omega, fun rest => ?_, fun rest => ?_, h5⟩
        · rw [List.cons_append, readContainer, if_pos hl, h3]
        · rw [List.cons_append, readContainer, if_pos hl, h4]
    · next hl =>
      rcases bind_err_iff.mp h with h1 | ⟨a, -, h2⟩
      · obtain ⟨rfl, rfl, hw⟩ := openInfo_err h1
        refine .inr ⟨[], l, ls, rfl, by simp, fun rest => ?_, fun rest => ?_, fits_one ?_ ?_, ?_⟩
        · rw [List.nil_append, readContainer, if_neg hl]; simp only [h1]; rfl
        · rw [List.nil_append, readContainer]; simp
        all_goals rcases hw with rfl | rfl | rfl <;> simp
      · cases h2

theorem readDeps_ok {e : Env} {n m : Nat} {ls ls' : List Str} {acc acc' : List Bytes} (h : readDeps e n ls acc = .ok (acc', ls', m)) :
    ∃ pre, ls = pre ++ ls' ∧ m = n + pre.length ∧ (∀ x ls'', x.head? ≠ some 42 → readDeps e n (pre ++ x :: ls'') acc = .ok (acc', x :: ls'', m)) ∧
      readDeps e n pre acc = .ok (acc', [], m) ∧ ∀ x ∈ ls'.head?, x.head? ≠ some 42 := by
  induction ls generalizing n acc with
  | nil =>
    simp only [readDeps, Res.ok.injEq, Prod.mk.injEq] at h
    obtain ⟨rfl, rfl, rfl⟩ := h
    exact ⟨[], rfl, by simp, fun x ls'' hx => by simp [readDeps, hx], by simp [readDeps], by simp⟩
  | cons l ls ih =>
    rw [readDeps] at h
    split at h
    · next hl =>
      split at h
      · next id hid =>
        obtain ⟨pre, rfl, rfl, h3, h4, h5⟩ := ih h
        refine ⟨l :: pre, rfl, by simp; omega, fun x ls'' hx => ?_, ?_, h5⟩
        · rw [List.cons_append, readDeps, if_pos hl, hid]; exact h3 x ls'' hx
        · rw [readDeps, if_pos hl, hid]; exact h4
      · cases h
    · next hl =>
      simp only [Res.ok.injEq, Prod.mk.injEq] at h
      obtain ⟨rfl, rfl, rfl⟩ := h
      exact ⟨[], rfl, by simp, fun x ls'' hx => by simp [readDeps, hx], by simp [readDeps], by simpa using hl⟩

theorem readDeps_err {e : Env} {n : Nat} {ls : List Str} {acc : List Bytes} {k c : Nat} {w : Why} (h : readDeps e n ls acc = .err k c w) :
    ∃ pre l post, ls = pre ++ l :: post ∧ k = n + pre.length + 1 ∧ (∀ rest, readDeps e n (pre ++ l :: rest) acc = .err k c w) ∧
      (∃ acc', ∀ rest, readDeps e n (pre ++ [10] :: rest) acc = .ok (acc', [10] :: rest, n + pre.length)) ∧ Fits e l c w ∧ w ≠ .empty := by
  induction ls generalizing n acc with
  | nil => simp [readDeps] at h
  | cons l ls ih =>
    rw [readDeps] at h
    split at h
    · next hl =>
      split at h
      · next id hid =>
        obtain ⟨pre, l', post, rfl, rfl, h3, ⟨acc', h4⟩, h5⟩ := ih h
        refine ⟨l :: pre, l', post, rfl, by simp; omega, fun rest => ?_, ⟨acc', fun rest => ?_⟩, h5⟩
        · rw [List.cons_append, readDeps, if_pos hl, hid]; exact h3 rest
        · rw [List.cons_append, readDeps, if_pos hl, hid]
          show readDeps _ _ _ _ = _
          rw [h4]; simp; omega
      · next hid =>
        simp only [Res.err.injEq] at h
        obtain ⟨rfl, rfl, rfl⟩ := h
        refine ⟨[], l, ls, rfl, by simp, fun rest => ?_, ⟨acc, fun rest => by simp [readDeps]⟩, fits_one (by simp) (by simp), by simp⟩
        rw [List.nil_append, readDeps, if_pos hl]
        split
        · next id h => exact absurd h (hid id)
        · rfl
    · cases h

/-! ### One line -/

theorem chomp_bare (l : Str) : chomp l = cstr (bare l) := rfl

theorem bare_subset (l : Str) : bare l ⊆ l := by
  unfold bare
  split
  · exact List.dropLast_subset l
  · exact fun _ h => h

theorem chomp_eq {l : Str} (h : 0 ∉ l) : chomp l = bare l := cstr_eq fun h' => h (bare_subset l h')

theorem chomp_le (l : Str) : (chomp l).length ≤ (bare l).length := (List.takeWhile_sublist _).length_le

theorem cons_of_head {α : Type} {s : List α} {a : α} (h : s.head? = some a) : ∃ t, s = a :: t := by
  cases s with
  | nil => cases h
  | cons x t => cases h; exact ⟨t, rfl⟩

theorem bare_head {l : Str} {c : UInt8} (h : l.head? = some c) (hc : c ≠ 10) : ∃ t, bare l = c :: t := by
  obtain ⟨t, rfl⟩ := cons_of_head h
  unfold bare
  split
  · next hl =>
    cases t with
    | nil => simp at hl; exact absurd hl hc
    | cons y t => exact ⟨_, rfl⟩
  · exact ⟨t, rfl⟩

theorem chomp_head {l : Str} {c : UInt8} (h : l.head? = some c) (hc : c ≠ 10) (h0 : c ≠ 0) : ∃ t, chomp l = c :: t := by
  obtain ⟨t, ht⟩ := bare_head h hc
  rw [chomp_bare, ht]
  exact ⟨t.takeWhile (· != 0), by simp [cstr, List.takeWhile_cons, h0]⟩

theorem tlsMark_eq (s : Str) : s = (if (tlsMark s).1 then [37] else []) ++ (tlsMark s).2 := by
  unfold tlsMark
  split <;> simp

theorem refLine_err {e : Env} {t c : SoInfo} {tp cp l : Str} {ft fc : File} (h1 : e.fs tp = some ft) (h2 : ft.info = some t) (h3 : e.fs cp = some fc)
    (h4 : fc.info = some c) (hl : l.head? = some 35) {n k col : Nat} {w : Why} (h : refLine t c tp cp n ((chomp l).drop 1) = .err k col w) :
    k = n ∧ Fits e l col w ∧ w ≠ .empty := by
  obtain ⟨s, hs⟩ := chomp_head hl (by decide) (by decide)
  have hlen := chomp_le l
  rw [hs] at h hlen
  simp only [List.drop_succ_cons, List.drop_zero] at h
  rw [refLine] at h
  have htm := tlsMark_eq s
  generalize tlsMark s = tm at h htm
  obtain ⟨tls, third⟩ := tm
  simp only at h htm
  subst htm
  have hcol : ∀ x : Str, x.length ≤ third.length → (if tls = true then 3 else 2) + x.length ≤ (bare l).length + 1 := by
    intro x hx
    simp only [List.length_cons, List.length_append] at hlen
    cases tls <;> simp at hlen ⊢ <;> omega
  have hpos : 1 ≤ (if tls = true then 3 else 2) := by cases tls <;> simp
  have hbare : 0 ∉ l → bare l = (35 :: (if tls = true then [37] else [])) ++ third := by
    intro h0
    rw [← chomp_eq h0, hs]; rfl
  have hl35 : (35 :: (if tls = true then [37] else []) : Str).length + 1 = if tls = true then 3 else 2 := by cases tls <;> rfl
  have crash : Fits e l (if tls = true then 3 else 2) .crash :=
    ⟨hpos, by simpa using hcol [] (by simp), fun x p h => (by cases h), fun h => by cases h⟩
  split at h
  · cases h; exact ⟨rfl, crash, by simp⟩
  · next tname rest hc1 =>
    obtain ⟨rfl, hn⟩ := strchr_ok hc1
    split at h
    · next hc2 =>
      have hn2 := strchr_none_iff.mp hc2
      split at h
      · next hg =>
        cases h
        refine ⟨rfl, ⟨hpos, by simpa using hcol [] (by simp), ?_, fun h => by cases h⟩, by simp⟩
        intro x p hx
        cases hx
        refine ⟨fun h0 => ⟨_, 58 :: rest, by rw [hbare h0]; simp, hl35, .inr rfl, hn⟩, lacks_of h1 h2 hg⟩
      · split at h
        · next hg =>
          cases h
          refine ⟨rfl, ⟨by omega, ?_, ?_, fun h => by cases h⟩, by simp⟩
          · have := hcol (tname ++ [58]) (by simp)
            simp at this
            omega
          · intro x p hx
            cases hx
            refine ⟨fun h0 => ⟨(35 :: (if tls = true then [37] else [])) ++ tname ++ [58], [], by rw [hbare h0]; simp, ?_, .inl rfl, hn2⟩, lacks_of h3 h4 hg⟩
            simp only [List.length_append, List.length_singleton]
            omega
        · cases h
    · split at h
      · cases h; exact ⟨rfl, crash, by simp⟩
      · cases h

theorem takeWhile_no {s : Str} : 58 ∉ s.takeWhile (· != 58) := by
  induction s with
  | nil => simp
  | cons c s ih =>
    rw [List.takeWhile_cons]
    split
    · next h => simp only [List.mem_cons, not_or]; exact ⟨fun h' => by simp [← h'] at h, ih⟩
    · simp

theorem dropWhile_head {s : Str} : (s.dropWhile (· != 58)) = [] ∨ (s.dropWhile (· != 58)).head? = some 58 := by
  induction s with
  | nil => exact .inl rfl
  | cons c s ih =>
    by_cases h : c = 58
    · right; subst h; simp [List.dropWhile_cons]
    · rw [List.dropWhile_cons, if_pos (by simpa using h)]; exact ih

theorem funcLine_err {e : Env} {t c : SoInfo} {tp cp l : Str} {ft fc : File} (h1 : e.fs tp = some ft) (h2 : ft.info = some t) (h3 : e.fs cp = some fc)
    (h4 : fc.info = some c) {n k col : Nat} {w : Why} (h : funcLine t c tp cp n (chomp l) = .err k col w) :
    k = n ∧ Fits e l col w ∧ w ≠ .empty := by
  have hlen := chomp_le l
  have heq : 0 ∉ l → bare l = chomp l := fun h0 => (chomp_eq h0).symm
  generalize chomp l = s at *
  unfold funcLine at h
  split at h
  · cases h
  · next hne =>
    have hpos : 0 < s.length := List.length_pos_iff.mpr hne
    split at h
    · next hlast =>
      cases h
      refine ⟨rfl, ⟨hpos, by omega, fun x p h => (by cases h), fun _ h0 => ?_⟩, by simp⟩
      obtain ⟨a, ha⟩ : ∃ a, s = a ++ [58] := by
        rw [List.getLast?_eq_some_getLast hne, Option.some.injEq] at hlast
        exact ⟨s.dropLast, by rw [← hlast, List.dropLast_concat_getLast]⟩
      exact ⟨a, by rw [heq h0, ha], by rw [ha]; simp⟩
    · split at h
      · cases h
      · simp only at h
        have hsplit : s = s.takeWhile (· != 58) ++ s.dropWhile (· != 58) := (List.takeWhile_append_dropWhile ..).symm
        split at h
        · next hg =>
          cases h
          refine ⟨rfl, ⟨Nat.le_refl _, by omega, ?_, fun h => by cases h⟩, by simp⟩
          intro x p hx
          cases hx
          refine ⟨fun h0 => ⟨[], s.dropWhile (· != 58), by rw [heq h0]; simpa using hsplit, rfl, dropWhile_head, takeWhile_no⟩, lacks_of h1 h2 hg⟩
        · split at h
          · cases h
            exact ⟨rfl, fits_one (by simp) (by simp), by simp⟩
          · split at h
            · next hg =>
              cases h
              have hsuf : ((s.dropWhile (· != 58)).dropWhile (· == 58)).length ≤ s.length :=
                Nat.le_trans (List.dropWhile_sublist _).length_le (List.dropWhile_sublist _).length_le
              refine ⟨rfl, ⟨by omega, by omega, ?_, fun h => by cases h⟩, by simp⟩
              intro x p hx
              cases hx
              refine ⟨fun h0 => ?_, lacks_of h3 h4 hg⟩
              generalize hd : (s.dropWhile (· != 58)).dropWhile (· == 58) = d at *
              refine ⟨s.takeWhile (· != 58) ++ (s.dropWhile (· != 58)).takeWhile (· == 58), d.dropWhile (· != 58), ?_, ?_, dropWhile_head, takeWhile_no⟩
              · rw [heq h0, List.append_assoc, List.takeWhile_append_dropWhile, ← hd, List.append_assoc, List.takeWhile_append_dropWhile]
                exact hsplit
              · have e1 : (s.takeWhile (· != 58)).length + (s.dropWhile (· != 58)).length = s.length := by
                  rw [← List.length_append, ← hsplit]
                have e2 : ((s.dropWhile (· != 58)).takeWhile (· == 58)).length + d.length = (s.dropWhile (· != 58)).length := by
                  rw [← hd, ← List.length_append, List.takeWhile_append_dropWhile]
                rw [List.length_append]
                omega
            · cases h

/-- The target is what was opened. -/
def Opened (e : Env) (acc : Acc × Str) : Prop := ∀ t, acc.1.obj = some t → ∃ f, e.fs acc.2 = some f ∧ f.info = some t

theorem entry_err {e : Env} {c : SoInfo} {cp l : Str} {fc : File} (h3 : e.fs cp = some fc) (h4 : fc.info = some c) {n : Nat} {acc : Acc × Str} (ho : Opened e acc)
    {k col : Nat} {w : Why} (h : entry e c cp n acc l = .err k col w) : k = n + 1 ∧ Fits e l col w ∧ w ≠ .empty := by
  unfold entry at h
  split at h
  · cases h
  · split at h
    · next hl =>
      split at h
      · cases h; exact ⟨rfl, fits_one (by simp) (by simp), by simp⟩
      · simp only at h
        split at h
        · cases h
        · rcases bind_err_iff.mp h with h | ⟨a, -, h⟩
          · obtain ⟨rfl, rfl, hw⟩ := openInfo_err h
            obtain ⟨t, ht⟩ := bare_head hl (by decide)
            refine ⟨rfl, ⟨by omega, by rw [ht]; simp, ?_, ?_⟩, ?_⟩ <;> rcases hw with rfl | rfl | rfl <;> simp
          · cases h
    · split at h
      · cases h; exact ⟨rfl, fits_one (by simp) (by simp), by simp⟩
      · next t ht =>
        obtain ⟨ft, h1, h2⟩ := ho t ht
        split at h
        · next hl =>
          rcases bind_err_iff.mp h with h | ⟨a, -, h⟩
          · exact refLine_err h1 h2 h3 h4 hl h
          · cases h
        · rcases bind_err_iff.mp h with h | ⟨a, -, h⟩
          · exact funcLine_err h1 h2 h3 h4 h
          · cases h

theorem entry_opened {e : Env} {c : SoInfo} {cp l : Str} {n : Nat} {acc acc' : Acc × Str} (ho : Opened e acc) (h : entry e c cp n acc l = .ok acc') : Opened e acc' := by
  unfold entry at h
  split at h
  · cases h; exact ho
  · split at h
    · split at h
      · cases h
      · simp only at h
        split at h
        · cases h
        · obtain ⟨i, h1, h2⟩ := bind_ok_iff.mp h
          cases h2
          intro t ht
          cases ht
          exact openInfo_ok h1
    · split at h
      · cases h
      · split at h
        all_goals
          obtain ⟨i, -, h2⟩ := bind_ok_iff.mp h
          cases h2
          exact ho

/-! ### The main loop -/

theorem entries_err {e : Env} {c : SoInfo} {cp : Str} {fc : File} (h3 : e.fs cp = some fc) (h4 : fc.info = some c) {n : Nat} {ls : List Str} {acc : Acc × Str}
    (ho : Opened e acc) {k col : Nat} {w : Why} (h : entries e c cp n ls acc = .err k col w) :
    ∃ pre l post acc', ls = pre ++ l :: post ∧ k = n + pre.length + 1 ∧ (∀ rest, entries e c cp n (pre ++ rest) acc = entries e c cp (n + pre.length) rest acc') ∧
      entry e c cp (n + pre.length) acc' l = .err k col w ∧ Fits e l col w ∧ w ≠ .empty := by
  induction ls generalizing n acc with
  | nil => simp [entries] at h
  | cons l ls ih =>
    rw [entries] at h
    rcases bind_err_iff.mp h with h | ⟨acc', h1, h2⟩
    · obtain ⟨rfl, h6⟩ := entry_err h3 h4 ho h
      exact ⟨[], l, ls, acc, rfl, rfl, fun _ => rfl, h, h6⟩
    · obtain ⟨pre, l', post, acc'', rfl, rfl, h5, h6, h7⟩ := ih (entry_opened ho h1) h2
      have e0 : n + 1 + pre.length = n + (l :: pre).length := by simp; omega
      refine ⟨l :: pre, l', post, acc'', rfl, by omega, fun rest => ?_, ?_, h7⟩
      · rw [List.cons_append, entries, h1, bind_ok, h5, e0]
      · rw [← e0]; exact h6

theorem entries_ok {e : Env} {c : SoInfo} {cp : Str} {n : Nat} {ls : List Str} {acc : Acc × Str} {a : Acc} (h : entries e c cp n ls acc = .ok a) :
    ∃ acc' : Acc × Str, acc'.1 = a ∧ ∀ rest, entries e c cp n (ls ++ rest) acc = entries e c cp (n + ls.length) rest acc' := by
  induction ls generalizing n acc with
  | nil => exact ⟨acc, by simpa [entries] using h, fun _ => rfl⟩
  | cons l ls ih =>
    rw [entries] at h
    obtain ⟨acc', h1, h2⟩ := bind_ok_iff.mp h
    obtain ⟨acc'', h3, h4⟩ := ih h2
    have e0 : n + 1 + ls.length = n + (l :: ls).length := by simp; omega
    exact ⟨acc'', h3, fun rest => by rw [List.cons_append, entries, h1, bind_ok, h4, e0]⟩

theorem entries_after {e : Env} {c : SoInfo} {cp : Str} {n : Nat} {ls : List Str} {acc : Acc × Str} {k col : Nat} {w : Why} (h : entries e c cp n ls acc = .err k col w) :
    n < k := by
  induction ls generalizing n acc with
  | nil => simp [entries] at h
  | cons l ls ih =>
    rw [entries] at h
    rcases bind_err_iff.mp h with h | ⟨acc', -, h2⟩
    · unfold entry at h
      have hr : ∀ {t d : SoInfo} {tp cp s : Str} {m}, refLine t d tp cp m s = .err k col w → k = m := by
        intro t d tp cp s m h
        unfold refLine at h
        grind
      have hf : ∀ {t d : SoInfo} {tp cp s : Str} {m}, funcLine t d tp cp m s = .err k col w → k = m := by
        intro t d tp cp s m h
        unfold funcLine at h
        grind
      split at h
      · cases h
      · split at h
        · split at h
          · cases h; omega
          · simp only at h
            split at h
            · cases h
            · rcases bind_err_iff.mp h with h | ⟨a, -, h⟩
              · have := (openInfo_err h).1; omega
              · cases h
        · split at h
          · cases h; omega
          · split at h <;> rcases bind_err_iff.mp h with h | ⟨a, -, h⟩
            · have := hr h; omega
            · cases h
            · have := hf h; omega
            · cases h
    · have := ih h2; omega

theorem entries_blank {e : Env} {c : SoInfo} {cp : Str} {n : Nat} {ls : List Str} {acc : Acc × Str} :
    entries e c cp n ([10] :: ls) acc = entries e c cp (n + 1) ls acc := by
  rw [entries]
  simp [entry]

theorem readContainer_after {e : Env} {n : Nat} {ls : List Str} {k c : Nat} {w : Why} (h : readContainer e n ls = .err k c w) : n < k := by
  rcases readContainer_err h with ⟨-, h, -⟩ | ⟨_, _, _, _, h, -⟩ <;> omega

theorem readDeps_after {e : Env} {n : Nat} {ls : List Str} {acc : List Bytes} {k c : Nat} {w : Why} (h : readDeps e n ls acc = .err k c w) : n < k := by
  obtain ⟨_, _, _, _, h, -⟩ := readDeps_err h; omega

/-! ### All of it -/

/-- The stages after the container. -/
def later (e : Env) (c : SoInfo) (cp : Str) (n : Nat) (ls : List Str) : Res (List Bytes × Acc) := do
  let (deps, ls, n) ← readDeps e n ls []
  let acc ← entries e c cp n ls (⟨none, [], []⟩, [])
  pure (deps, acc)

theorem parseLines_eq (e : Env) (ls : List Str) : parseLines e ls = readContainer e 0 ls >>= fun x => later e x.1 x.2.1 x.2.2.2 x.2.2.1 := rfl

theorem later_after {e : Env} {c : SoInfo} {cp : Str} {n : Nat} {ls : List Str} {k col : Nat} {w : Why} (h : later e c cp n ls = .err k col w) : n < k := by
  unfold later at h
  rcases bind_err_iff.mp h with h | ⟨⟨d, ls', m⟩, h1, h2⟩
  · exact readDeps_after h
  · obtain ⟨pre, -, rfl, -⟩ := readDeps_ok h1
    rcases bind_err_iff.mp h2 with h | ⟨a, -, h⟩
    · have := entries_after h; omega
    · cases h

theorem later_err {e : Env} {c : SoInfo} {cp : Str} {fc : File} (h3 : e.fs cp = some fc) (h4 : fc.info = some c) {n : Nat} {ls : List Str} {k col : Nat} {w : Why}
    (h : later e c cp n ls = .err k col w) :
    ∃ pre l post, ls = pre ++ l :: post ∧ k = n + pre.length + 1 ∧ (∀ rest, later e c cp n (pre ++ l :: rest) = .err k col w) ∧
      (∀ rest k' col' w', later e c cp n (pre ++ [10] :: rest) = .err k' col' w' → k < k') ∧ Fits e l col w ∧ w ≠ .empty := by
  unfold later at h
  rcases bind_err_iff.mp h with h | ⟨⟨d, ls', m⟩, h1, h2⟩
  · obtain ⟨pre, l, post, rfl, rfl, h5, ⟨acc', h6⟩, h7⟩ := readDeps_err h
    refine ⟨pre, l, post, rfl, rfl, fun rest => by unfold later; rw [h5]; rfl, fun rest k' col' w' h' => ?_, h7⟩
    unfold later at h'
    rw [h6, bind_ok] at h'
    simp only at h'
    rw [entries_blank] at h'
    rcases bind_err_iff.mp h' with h | ⟨a, -, h⟩
    · exact entries_after h
    · cases h
  · obtain ⟨pre, rfl, rfl, h5, -, h6⟩ := readDeps_ok h1
    simp only at h2
    rcases bind_err_iff.mp h2 with h | ⟨a, -, h⟩
    · obtain ⟨pre', l, post, acc', rfl, rfl, h7, h8, h9⟩ := entries_err h3 h4 (acc := (⟨none, [], []⟩, [])) (fun t ht => by cases ht) h
      have head : ∀ y rest, (y.head? ≠ some 42 ∨ pre' ≠ []) → readDeps e n (pre ++ (pre' ++ y :: rest)) [] = .ok (d, pre' ++ y :: rest, n + pre.length) := by
        intro y rest hy
        cases pre' with
        | nil => exact h5 y rest (hy.resolve_right (by simp))
        | cons x pre' => exact h5 x (pre' ++ y :: rest) (h6 x (by simp))
      have hl : l.head? ≠ some 42 ∨ pre' ≠ [] := by
        cases pre' with
        | nil => exact .inl (h6 l (by simp))
        | cons => exact .inr (by simp)
      refine ⟨pre ++ pre', l, post, by simp, by simp; omega, fun rest => ?_, fun rest k' col' w' h' => ?_, h9⟩
      · unfold later
        rw [List.append_assoc, head l rest hl, bind_ok]
        simp only
        rw [h7, entries, h8]
        rfl
      · unfold later at h'
        rw [List.append_assoc, head [10] rest (.inl (by simp)), bind_ok] at h'
        simp only at h'
        rw [h7, entries_blank] at h'
        rcases bind_err_iff.mp h' with h | ⟨a, -, h⟩
        · exact entries_after h
        · cases h
    · cases h

theorem parse_err {e : Env} {ls : List Str} {k col : Nat} {w : Why} (h : parseLines e ls = .err k col w) :
    (w = .empty ∧ k = ls.length + 1 ∧ col = 1) ∨
    ∃ pre l post, ls = pre ++ l :: post ∧ k = pre.length + 1 ∧ (∀ rest, parseLines e (pre ++ l :: rest) = .err k col w) ∧
      (∀ rest k' col' w', parseLines e (pre ++ [10] :: rest) = .err k' col' w' → k < k') ∧ Fits e l col w ∧ w ≠ .empty := by
  rw [parseLines_eq] at h
  rcases bind_err_iff.mp h with h | ⟨⟨c, cp, ls', m⟩, h1, h2⟩
  · rcases readContainer_err h with ⟨h1, h2, h3⟩ | ⟨pre, l, post, rfl, hk, h5, h6, h7⟩
    · exact .inl ⟨h1, by omega, h3⟩
    · refine .inr ⟨pre, l, post, rfl, by omega, fun rest => by rw [parseLines_eq, h5]; rfl, fun rest k' col' w' h' => ?_, h7⟩
      rw [parseLines_eq, h6] at h'
      rcases bind_err_iff.mp h' with h | ⟨⟨c, cp, ls', m⟩, h1, h2⟩
      · exact readContainer_after h
      · obtain ⟨pre', -, rfl, -⟩ := readContainer_ok h1
        have := later_after h2
        simp only at this
        omega
  · obtain ⟨pre, rfl, rfl, h5, f, h6, h7⟩ := readContainer_ok h1
    simp only at h2
    obtain ⟨pre', l, post, rfl, rfl, h8, h9, h10⟩ := later_err h6 h7 h2
    refine .inr ⟨pre ++ pre', l, post, by simp, by simp, fun rest => ?_, fun rest k' col' w' h' => ?_, h10⟩
    · rw [parseLines_eq, List.append_assoc, h5, bind_ok]
      simp only
      rw [h8]
    · rw [parseLines_eq, List.append_assoc, h5, bind_ok] at h'
      exact h9 _ _ _ _ h'

/-! ### The printed line -/

theorem redPart_eq {d t : Str} (hd : 10 ∉ d) (ht : t = [] ∨ t = [10]) :
    redPart false (d ++ t) = (d.takeWhile (· != 58), (redPart false (d ++ t)).2) ∧ (redPart false (d ++ t)).2.filter (· != 10) = d.dropWhile (· != 58) := by
  induction d with
  | nil => rcases ht with rfl | rfl <;> simp [redPart]
  | cons c d ih =>
    simp only [List.mem_cons, not_or] at hd
    obtain ⟨i1, i2⟩ := ih hd.2
    rw [List.cons_append, redPart]
    by_cases hc : c = 58
    · subst hc
      have : ∀ x ∈ d, (x != 10) = true := by
        intro x hx
        have : x ≠ 10 := fun h => hd.2 (h ▸ hx)
        simpa using this
      rcases ht with rfl | rfl <;> simp [List.filter_cons, List.filter_append, List.takeWhile_cons, List.dropWhile_cons, List.filter_eq_self.mpr this]
    · have h10 : c ≠ 10 := fun h => hd.1 h.symm
      rw [if_neg hc]
      rw [i1]
      simp [List.takeWhile_cons, List.dropWhile_cons, hc, h10, i2]

theorem split_bare {l : Str} : ∃ t, l = bare l ++ t ∧ (t = [] ∨ t = [10]) := by
  unfold bare
  split
  · next h =>
    refine ⟨[10], ?_, .inr rfl⟩
    cases l with
    | nil => cases h
    | cons x l =>
      have hne : (x :: l) ≠ [] := by simp
      rw [List.getLast?_eq_some_getLast hne, Option.some.injEq] at h
      conv => lhs; rw [← List.dropLast_concat_getLast hne, h]
  · exact ⟨[], by simp, .inl rfl⟩

theorem bare_no {l : Str} (h : 10 ∉ l.dropLast) : 10 ∉ bare l := by
  unfold bare
  split
  · exact h
  · next hl =>
    intro hm
    cases l with
    | nil => cases hm
    | cons x l =>
      have hne : (x :: l) ≠ [] := by simp
      rw [← List.dropLast_concat_getLast hne] at hm
      rcases List.mem_append.mp hm with hm | hm
      · exact h hm
      · rw [List.mem_singleton] at hm
        exact hl (by rw [List.getLast?_eq_some_getLast hne, ← hm])

theorem text_append (a b : List Out) : text (a ++ b) = text a ++ text b := by
  induction a with
  | nil => rfl
  | cons x a ih => cases x <;> simp [text, ih]

theorem text_chars (s : Str) : text (chars s) = s := by
  induction s with
  | nil => rfl
  | cons c s ih => simp only [chars, List.map_cons, text] at ih ⊢; rw [ih]

theorem red_none (s : Str) (o : List Out) : redPieces none (chars s ++ o) = redPieces none o := by
  induction s with
  | nil => rfl
  | cons c s ih => simpa [chars, redPieces] using ih

theorem red_some (p s : Str) (o : List Out) : redPieces (some p) (chars s ++ o) = redPieces (some (p ++ s)) o := by
  induction s generalizing p with
  | nil => simp [chars]
  | cons c s ih =>
    have := ih (p ++ [c])
    simp only [chars, List.map_cons, List.cons_append, redPieces] at this ⊢
    rw [this]; simp

end Verif.Diag
