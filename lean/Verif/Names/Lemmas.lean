import Verif.Names.Spec
import Verif.Listing.Props
import Verif.Inspect.Props
import Verif.Text.Props
import Verif.SymLoad.Props

namespace Verif.Names

open Verif.Listing (Entry Query loop gen seen selected nameOk userOk wanted loop_eq)
open Verif.Inspect (Obj LinkMap)
open Verif.Inspect.Spec

theorem takeWhile_stop {l r : Str} {p : UInt8 → Bool} {c : UInt8} (h : ∀ x ∈ l, p x = true) (hc : p c = false) : (l ++ c :: r).takeWhile p = l := by
  induction l with
  | nil => simp [hc]
  | cons a l ih => rw [List.cons_append, List.takeWhile_cons_of_pos (h a (by simp)), ih fun x hx => h x (by simp [hx])]

theorem dropWhile_stop {l r : Str} {p : UInt8 → Bool} {c : UInt8} (h : ∀ x ∈ l, p x = true) (hc : p c = false) : (l ++ c :: r).dropWhile p = c :: r := by
  induction l with
  | nil => simp [hc]
  | cons a l ih => rw [List.cons_append, List.dropWhile_cons_of_pos (h a (by simp)), ih fun x hx => h x (by simp [hx])]

/-- The first line, when it is short. -/
theorem fgets_line {l r : Str} (h : 10 ∉ l) (hl : l.length < 4095) : fgets (l ++ 10 :: r) = l ++ [10] := by
  have h1 : ∀ x ∈ l, (fun c : UInt8 => c != 10) x = true := fun x hx => by
    simp only [bne_iff_ne, ne_eq]; rintro rfl; exact h hx
  unfold fgets
  rw [takeWhile_stop h1 (by decide), dropWhile_stop h1 (by decide), List.take_of_length_le]
  · rfl
  · simp; omega

theorem basename_line {dir base : Str} (hd : dir = [] ∨ ∃ d, dir = d ++ [47]) (hb : 47 ∉ base) : getBasename (dir ++ base ++ [10]) = base ++ [10] := by
  rw [List.append_assoc]
  exact Text.C40_basename_unique _ _ (by simp [hb]) hd

theorem binName_cons {buf c : Str} (h : c ≠ []) :
    binName buf (.text c) = ((getBasename (fgets c)).takeWhile (· != 10), (getBasename (fgets c)).takeWhile (· != 10)) := if_neg h

theorem binName_text {buf dir base : Str} (hd : dir = [] ∨ ∃ d, dir = d ++ [47]) (hb : 47 ∉ base) (h10 : 10 ∉ dir ++ base) (hl : (dir ++ base).length < 4095) :
    binName buf (.text (dir ++ base ++ [10])) = (base, base) := by
  rw [binName_cons (by simp), fgets_line h10 hl, basename_line hd hb, takeWhile_stop (fun x hx => ?_) (by decide)]
  simp only [bne_iff_ne, ne_eq]; rintro rfl; exact h10 (by simp [hx])

theorem first_line (n : Str) : ∃ l r, n ++ [10] = l ++ 10 :: r ∧ 10 ∉ l ∧ l.length ≤ n.length := by
  induction n with
  | nil => exact ⟨[], [], rfl, by simp, by simp⟩
  | cons a n ih =>
    by_cases ha : a = 10
    · exact ⟨[], n ++ [10], by simp [ha], by simp, by simp⟩
    · obtain ⟨l, r, h1, h2, h3⟩ := ih
      refine ⟨a :: l, r, by simp [h1], ?_, by simpa using h3⟩
      simp only [List.mem_cons, not_or]
      exact ⟨fun e => ha e.symm, h2⟩

/-- A name is not longer than the kernel's. -/
theorem binName_length {buf : Str} {t : Task} (hk : t.Kernel) (hb : buf.length ≤ 15) :
    (binName buf t.comm).1.length ≤ 15 ∧ (binName buf t.comm).2.length ≤ 15 := by
  cases hc : t.comm with
  | gone => exact ⟨by show ("(null)".toUTF8.toList).length ≤ 15; decide +kernel, hb⟩
  | unread => exact ⟨hb, hb⟩
  | text c =>
    obtain ⟨n, hn, rfl⟩ := hk c hc
    have key : ((getBasename (fgets (n ++ [10]))).takeWhile (· != 10)).length ≤ 15 := by
      obtain ⟨l, r, h1, h2, h3⟩ := first_line n
      rw [h1, fgets_line h2 (by omega)]
      obtain ⟨dir, g1, -, -⟩ := Text.C40_basename (l ++ [10])
      have g2 := congrArg List.length g1
      simp only [List.length_append, List.length_singleton] at g2
      have g3 := (List.takeWhile_prefix (l := getBasename (l ++ [10])) (· != 10)).length_le
      refine Decidable.byContradiction fun hcon => ?_
      have e1 : (getBasename (l ++ [10])).takeWhile (· != 10) = getBasename (l ++ [10]) :=
        (List.takeWhile_prefix _).eq_of_length (by omega)
      have e2 : dir = [] := List.length_eq_zero_iff.mp (by omega)
      rw [e2, List.nil_append] at g1
      rw [← g1] at e1
      have : (10 : UInt8) ∈ (l ++ [10]).takeWhile (· != 10) := by rw [e1]; simp
      have g4 : ∀ {l : Str}, (10 : UInt8) ∉ l.takeWhile (· != 10) := by
        intro l
        induction l with
        | nil => simp
        | cons a l ih =>
          by_cases ha : a = 10
          · rw [List.takeWhile_cons_of_neg (by simp [ha])]; simp
          · rw [List.takeWhile_cons_of_pos (by simpa using ha), List.mem_cons, not_or]
            exact ⟨fun e => ha e.symm, ih⟩
      exact g4 this
    rw [binName_cons (by simp)]
    exact ⟨key, key⟩

/-! ### The list -/

theorem scan_mem {users fuel} {ts : List Task} : ∀ {buf : Str} {e : Entry}, e ∈ scan users fuel buf ts → ∃ t ∈ ts, ∃ b, e = entry users fuel b t := by
  induction ts with
  | nil => intro buf e h; simp [scan] at h
  | cons t ts ih =>
    intro buf e h
    simp only [scan, List.mem_cons] at h
    rcases h with rfl | h
    · exact ⟨t, by simp, buf, rfl⟩
    · obtain ⟨t', h1, b, h2⟩ := ih h
      exact ⟨t', by simp [h1], b, h2⟩

/-- The same with a bound on what is in the buffer. -/
theorem scan_mem_short {users fuel} {ts : List Task} (hk : ∀ t ∈ ts, t.Kernel) : ∀ {buf : Str} {e : Entry}, buf.length ≤ 15 → e ∈ scan users fuel buf ts →
    ∃ t ∈ ts, ∃ b : Str, b.length ≤ 15 ∧ e = entry users fuel b t := by
  induction ts with
  | nil => intro buf e _ h; simp [scan] at h
  | cons t ts ih =>
    intro buf e hb h
    simp only [scan, List.mem_cons] at h
    rcases h with rfl | h
    · exact ⟨t, by simp, buf, hb, rfl⟩
    · obtain ⟨t', h1, b, h2, h3⟩ := ih (fun t h => hk t (by simp [h])) (binName_length (hk t (by simp)) hb).2 h
      exact ⟨t', by simp [h1], b, h2, h3⟩

/-- What the loop yields are numbers of processes that were selected. -/
theorem mem_seen_gen {q : Query} {es : List Entry} : ∀ {last : Option Nat} {p : Nat}, p ∈ seen (gen q es last) →
    some p = last ∨ ∃ e ∈ es, selected q e = true ∧ e.pid = some p := by
  induction es with
  | nil => intro last p h; simp [gen, seen] at h
  | cons e es ih =>
    intro last p h
    unfold gen at h
    by_cases hs : selected q e = true
    · rw [if_pos hs] at h
      simp only at h
      have hcase : (if e.collects then e.pid else last) = e.pid ∨ (if e.collects then e.pid else last) = last := by
        by_cases hc : e.collects = true
        · exact .inl (if_pos hc)
        · exact .inr (if_neg hc)
      have hx : ∀ x : Option Nat, p ∈ seen (x :: gen q es x) → some p = x ∨ ∃ e ∈ es, selected q e = true ∧ e.pid = some p := by
        intro x hx
        cases x with
        | none => simp [seen] at hx
        | some y =>
          simp only [seen, List.mem_cons] at hx
          rcases hx with rfl | hx
          · exact .inl rfl
          · exact ih hx
      rcases hx _ h with h | ⟨e', h1, h2, h3⟩
      · rcases hcase with hc | hc
        · exact .inr ⟨e, by simp, hs, by rw [← hc, ← h]⟩
        · exact .inl (by rw [← hc, ← h])
      · exact .inr ⟨e', by simp [h1], h2, h3⟩
    · rw [if_neg hs] at h
      rcases ih h with h | ⟨e', h1, h2, h3⟩
      · exact .inl h
      · exact .inr ⟨e', by simp [h1], h2, h3⟩

theorem mem_loop {q : Query} {es : List Entry} {p : Nat} (h : p ∈ loop q es none) : ∃ e ∈ es, selected q e = true ∧ e.pid = some p := by
  rw [loop_eq] at h
  rcases mem_seen_gen h with h | h
  · cases h
  · exact h

theorem selected_iff {q : Query} {users fuel} {b : Str} {t : Task} : selected q (entry users fuel b t) = true ↔
    nameOk q (entry users fuel b t) = true ∧ userOk q (entry users fuel b t) = true ∧ t.pid ≠ q.self ∧ hasLibpulp t = true := by
  simp [selected, entry, and_assoc]

/-- If data can be collected of all processes that are selected, and selecting does not depend on the buffer, the list is that of the selected
ones. -/
theorem loop_scan {q : Query} {users fuel} (P : Task → Bool) {ts : List Task} (hP : ∀ t ∈ ts, ∀ b, selected q (entry users fuel b t) = P t)
    (hc : ∀ t ∈ ts, P t = true → collects fuel t = true) (buf : Str) :
    loop q (scan users fuel buf ts) none = (ts.filter P).map (·.pid) := by
  rw [Listing.C49_all_once_partial q _ (fun e he hs => by
    obtain ⟨t, ht, b, rfl⟩ := scan_mem he
    exact hc t ht ((hP t ht b).symm.trans hs))]
  unfold wanted
  clear hc
  induction ts generalizing buf with
  | nil => rfl
  | cons t ts ih =>
    have h1 := hP t (by simp) buf
    have h2 := ih (fun t h => hP t (by simp [h])) (binName buf t.comm).2
    simp only [scan]
    by_cases hp : P t = true
    · rw [List.filter_cons_of_pos (by rw [h1, hp]), List.filter_cons_of_pos hp, List.filterMap_cons_some (f := fun x : Entry => x.pid) (b := t.pid) rfl, h2]
      rfl
    · rw [List.filter_cons_of_neg (by rw [h1]; exact hp), List.filter_cons_of_neg hp, h2]

/-! ### libpulp -/

theorem infix_line {m : Mapping} (hv : m.Valid) : pulp <:+: m.line ↔ pulp <:+: m.path := by
  constructor
  · intro h
    unfold Mapping.line at h
    have step : ∀ (hd r : Str), (∀ c ∈ hd, c ∈ headChars) → pulp <:+: hd ++ r → pulp <:+: r := by
      intro hd
      induction hd with
      | nil => intro r _ h; exact h
      | cons c hd ih =>
        intro r hh h
        rw [List.cons_append, List.infix_cons_iff] at h
        rcases h with ⟨x, hx⟩ | h
        · have e : pulp = 108 :: pulp.tail := by decide +kernel
          rw [e, List.cons_append] at hx
          have : (108 : UInt8) ∈ headChars := by
            have := hh c (by simp)
            rwa [← (List.cons.inj hx).1] at this
          exact absurd this (by decide +kernel)
        · exact ih r (fun c hc => hh c (by simp [hc])) h
    rw [List.append_assoc] at h
    have h1 := step _ _ hv h
    obtain ⟨x, y, hxy⟩ := h1
    rcases List.eq_nil_or_concat y with rfl | ⟨y', c, rfl⟩
    · have e : pulp = pulp.dropLast ++ [111] := by decide +kernel
      rw [List.append_nil, e, ← List.append_assoc] at hxy
      have := (List.append_inj' hxy rfl).2
      simp at this
    · rw [List.concat_eq_append, ← List.append_assoc] at hxy
      exact ⟨x, y', (List.append_inj' hxy rfl).1⟩
  · intro h
    obtain ⟨x, y, hxy⟩ := h
    exact ⟨m.head ++ x, y ++ [10], by simp [Mapping.line, ← hxy]⟩

theorem pulpName_eq : Inspect.pulpName = pulp := by decide +kernel

theorem hasLibpulp_maps {t : Task} {ms : List Mapping} (h : t.Maps ms) : hasLibpulp t = true ↔ ∃ m ∈ ms, pulp <:+: m.path := by
  unfold hasLibpulp
  rw [h.1]
  show libpulpLoaded _ = true ↔ _
  unfold libpulpLoaded
  rw [List.any_eq_true]
  simp only [List.mem_map, SymLoad.strstr_iff, pulpName_eq]
  constructor
  · rintro ⟨l, ⟨m, hm, rfl⟩, hl⟩
    exact ⟨m, hm, (infix_line (h.2 m hm)).mp hl⟩
  · rintro ⟨m, hm, hl⟩
    exact ⟨_, ⟨m, hm, rfl⟩, (infix_line (h.2 m hm)).mpr hl⟩

theorem MapsPulp.has {t : Task} (h : t.MapsPulp) : hasLibpulp t = true := by
  obtain ⟨ms, h1, h2⟩ := h
  exact (hasLibpulp_maps h1).mpr h2

theorem Plain.has {t : Task} (h : t.Plain) : hasLibpulp t = false := by
  obtain ⟨ms, h1, h2⟩ := h
  cases hh : hasLibpulp t with
  | false => rfl
  | true =>
    obtain ⟨m, hm, hp⟩ := (hasLibpulp_maps h1).mp hh
    exact absurd hp (h2 m hm)

theorem Live.collects {t : Task} (h : t.Live) : ∃ N, ∀ fuel, N ≤ fuel → collects fuel t = true := by
  obtain ⟨-, ha, bias, main, objs, syms, o, state, h1, h2, h3, h4, h5, h6, h7, h8, h9⟩ := h
  obtain ⟨s, N, -, hN⟩ := Inspect.C94_ready_partial h1 h2 syms h3 h4 h5 h6 h7 h8
  refine ⟨N, fun fuel hf => ?_⟩
  unfold Names.collects
  rw [hN fuel hf, ha, if_neg h9]
  rfl

theorem Impostor.collects {t : Task} (h : t.Impostor) : ∃ N, ∀ fuel, N ≤ fuel → collects fuel t = false := by
  obtain ⟨-, bias, main, objs, h1, h2, h3⟩ := h
  obtain ⟨N, hN⟩ := Inspect.C94_not_loaded h1 h2 h3
  refine ⟨N, fun fuel hf => ?_⟩
  unfold Names.collects
  rw [hN fuel hf]
  simp

/-- One bound for all. -/
theorem bound {α : Type} {P : α → Nat → Prop} (l : List α) (h : ∀ a ∈ l, ∃ N, ∀ n, N ≤ n → P a n) : ∃ N, ∀ n, N ≤ n → ∀ a ∈ l, P a n := by
  induction l with
  | nil => exact ⟨0, by simp⟩
  | cons a l ih =>
    obtain ⟨N, hN⟩ := h a (by simp)
    obtain ⟨M, hM⟩ := ih fun a ha => h a (by simp [ha])
    refine ⟨N + M, fun n hn b hb => ?_⟩
    rcases List.mem_cons.mp hb with rfl | hb
    · exact hN n (by omega)
    · exact hM n (by omega) b hb

end Verif.Names
