import Verif.Dsc.Spec

/-!
Lemmas about reading descriptions.
-/

namespace Verif.Dsc

open Verif.Extract (SoInfo Sym getSymbol)
open Verif.Metadata (Patch Unit' Ref)
open Verif.Metadata.Spec (All₂)
open Spec

@[simp] theorem bind_ok {α β} (a : α) (f : α → Res β) : (Res.ok a >>= f) = f a := rfl
@[simp] theorem bind_err {α β} (f : α → Res β) : ((Res.err : Res α) >>= f) = .err := rfl
@[simp] theorem bind_null {α β} (f : α → Res β) : ((Res.null : Res α) >>= f) = .null := rfl
@[simp] theorem bind_ub {α β} (f : α → Res β) : ((Res.ub : Res α) >>= f) = .ub := rfl
@[simp] theorem pure_eq {α} (a : α) : (pure a : Res α) = .ok a := rfl

theorem bind_eq_ok {α β} {m : Res α} {f : α → Res β} {b : β} : (m >>= f) = .ok b ↔ ∃ a, m = .ok a ∧ f a = .ok b := by
  cases m <;> simp

/-! ### Text -/

theorem lines_line {l : Str} (h : 10 ∉ l) (rest : Bytes) : lines (l ++ 10 :: rest) = (l ++ [10]) :: lines rest := by
  induction l with
  | nil => simp [lines]
  | cons c l ih =>
    simp only [List.mem_cons, not_or] at h
    rw [List.cons_append, lines, if_neg (Ne.symm h.1), ih h.2]
    rfl

theorem lines_texts {ts : List Str} (h : ∀ t ∈ ts, 10 ∉ t) (rest : Bytes) :
    lines (ts.flatMap (· ++ [10]) ++ rest) = ts.map (· ++ [10]) ++ lines rest := by
  induction ts with
  | nil => simp
  | cons t ts ih =>
    rw [List.flatMap_cons, List.append_assoc, List.append_assoc, List.singleton_append, lines_line (h t (by simp)),
      ih (fun x hx => h x (by simp [hx]))]
    rfl

theorem lines_ne_nil {b : Bytes} {l : Str} (h : l ∈ lines b) : l ≠ [] := by
  induction b generalizing l with
  | nil => simp [lines] at h
  | cons c cs ih =>
    rw [lines] at h
    split at h
    · rcases List.mem_cons.mp h with rfl | h
      · simp
      · exact ih h
    · split at h
      · simp at h; subst h; simp
      · rename_i l' ls' heq
        rcases List.mem_cons.mp h with rfl | h
        · simp
        · exact ih (by rw [heq]; simp [h])

theorem takeWhile_all {α} {p : α → Bool} {l : List α} (h : ∀ c ∈ l, p c = true) : l.takeWhile p = l := by
  induction l with
  | nil => rfl
  | cons a l ih => rw [List.takeWhile_cons, h a (by simp), if_pos rfl, ih (fun c hc => h c (by simp [hc]))]

theorem cstr_eq {l : Str} (h : 0 ∉ l) : cstr l = l :=
  takeWhile_all fun c hc => by simp; rintro rfl; exact h hc

theorem chomp_line {l : Str} (h : 0 ∉ l) : chomp (l ++ [10]) = l := by
  unfold chomp
  simp [cstr_eq h]

theorem strchr_none {s : Str} (h : 58 ∉ s) : strchr s = none := by
  induction s with
  | nil => rfl
  | cons c s ih =>
    simp only [List.mem_cons, not_or] at h
    rw [strchr, if_neg (Ne.symm h.1), ih h.2]
    rfl

theorem strchr_some {s : Str} (h : 58 ∉ s) (r : Str) : strchr (s ++ 58 :: r) = some (s, r) := by
  induction s with
  | nil => simp [strchr]
  | cons c s ih =>
    simp only [List.mem_cons, not_or] at h
    rw [List.cons_append, strchr, if_neg (Ne.symm h.1), ih h.2]
    rfl

theorem hexDigits_eq {s : Str} (h : ∀ c ∈ s, (Text.hexVal c).isSome) : hexDigits s = hexValue s := by
  unfold hexDigits hexValue
  rw [takeWhile_all h]

theorem hex_not_space {c : UInt8} (h : (Text.hexVal c).isSome) :
    Text.isSpace c = false ∧ c ≠ 45 ∧ c ≠ 43 ∧ c ≠ 120 ∧ c ≠ 88 ∧ c ≠ 58 ∧ c ≠ 0 ∧ c ≠ 10 := by
  have key : ∀ c : UInt8, (Text.hexVal c).isSome = true → Text.isSpace c = false ∧ c ≠ 45 ∧ c ≠ 43 ∧ c ≠ 120 ∧ c ≠ 88 ∧ c ≠ 58 ∧ c ≠ 0 ∧ c ≠ 10 := by
    intro c
    obtain ⟨⟨i, hi⟩⟩ := c
    revert i
    decide +kernel
  exact key c h

theorem strtol16_hex {s : Str} (h : Hex s) (hv : hexValue s < 2 ^ 63) : strtol16 s = hexValue s := by
  obtain ⟨hne, h⟩ := h
  cases s with
  | nil => exact absurd rfl hne
  | cons c s =>
    have hc := hex_not_space (h c (by simp))
    have h1 : sign (c :: s) = (false, c :: s) := by
      unfold sign
      split
      · rename_i heq; injection heq with h1 h2; exact absurd h1 hc.2.1
      · rename_i heq; injection heq with h1 h2; exact absurd h1 hc.2.2.1
      · rfl
    have h2 : skip0x (c :: s) = c :: s := by
      unfold skip0x
      split
      · rename_i x d t heq
        have hx := hex_not_space (h x (by rw [heq]; simp))
        rw [if_neg (fun hh => hh.1.elim hx.2.2.2.1 hx.2.2.2.2.1), heq]
      · rfl
    unfold strtol16
    rw [List.dropWhile_cons, hc.1]
    simp only [Bool.false_eq_true, if_false, h1, h2, hexDigits_eq h]
    exact Nat.min_eq_left (by omega)

/-! ### Symbols -/

theorem getSymbol_has {i : SoInfo} {n : Str} (h : Has i n) :
    ∃ s, getSymbol i n = some s ∧ Spec.At i n s.offset.toNat := by
  obtain ⟨s, hs, hn⟩ := h
  cases hg : getSymbol i n with
  | none =>
    unfold getSymbol at hg
    rw [List.find?_eq_none] at hg
    exact absurd hn (by simpa using hg s hs)
  | some s' =>
    unfold getSymbol at hg
    exact ⟨s', rfl, s', List.mem_of_find?_eq_some hg, by simpa using List.find?_some hg, rfl⟩

theorem getSymbol_at {i : SoInfo} {n : Str} {s : Sym} (h : getSymbol i n = some s) : Spec.At i n s.offset.toNat := by
  unfold getSymbol at h
  exact ⟨s, List.mem_of_find?_eq_some h, by simpa using List.find?_some h, rfl⟩

/-! ### Lists -/

theorem all2_nil {α β} (R : α → β → Prop) : All₂ R [] [] := ⟨rfl, fun i h => by simp at h⟩

theorem all2_cons {α β} {R : α → β → Prop} {a : α} {b : β} {l : List α} {k : List β} :
    All₂ R (a :: l) (b :: k) ↔ R a b ∧ All₂ R l k := by
  constructor
  · rintro ⟨h1, h2⟩
    refine ⟨h2 0 (by simp) (by simp), by simpa using h1, fun i h3 h4 => ?_⟩
    exact h2 (i + 1) (by simpa using h3) (by simpa using h4)
  · rintro ⟨h, h1, h2⟩
    refine ⟨by simp [h1], fun i h3 h4 => ?_⟩
    cases i with
    | zero => exact h
    | succ i => exact h2 i (by simpa using h3) (by simpa using h4)

theorem all2_append {α β} {R : α → β → Prop} {l l' : List α} {k k' : List β} (h : All₂ R l k) (h' : All₂ R l' k') :
    All₂ R (l ++ l') (k ++ k') := by
  induction l generalizing k with
  | nil =>
    have : k = [] := List.length_eq_zero_iff.mp h.1.symm
    subst this
    simpa using h'
  | cons a l ih =>
    cases k with
    | nil => exact absurd h.1 (by simp)
    | cons b k =>
      rw [all2_cons] at h
      rw [List.cons_append, List.cons_append, all2_cons]
      exact ⟨h.1, ih h.2⟩

theorem all2_imp {α β} {R S : α → β → Prop} {l : List α} {k : List β} (h : All₂ R l k) (hi : ∀ a b, R a b → S a b) :
    All₂ S l k := ⟨h.1, fun i h1 h2 => hi _ _ (h.2 i h1 h2)⟩

theorem all2_left_nil {α β} {R : α → β → Prop} {k : List β} (h : All₂ R [] k) : k = [] :=
  List.length_eq_zero_iff.mp h.1.symm

/-! ### Reading a well-formed description -/

theorem entries_append (e : Env) (c : SoInfo) (ls ks : List Str) (acc : Acc) :
    entries e c (ls ++ ks) acc = entries e c ls acc >>= entries e c ks := by
  induction ls generalizing acc with
  | nil => rfl
  | cons l ls ih =>
    rw [List.cons_append, entries, entries]
    cases entry e c acc l with
    | ok a => exact ih a
    | err => rfl
    | null => rfl
    | ub => rfl

theorem openInfo_lib {e : Env} {path : Str} {i : SoInfo} (h : IsLib e path i) : openInfo e path = .ok i := by
  obtain ⟨f, h1, h2, h3⟩ := h
  simp [openInfo, h1, h2, h3]

theorem remark_head (x : Option Str) : (remark x ++ [10]).head? = some 10 ∨ (remark x ++ [10]).head? = some 33 := by
  cases x <;> simp [remark]

theorem readContainer_remarks (e : Env) (xs : List (Option Str)) (ls : List Str) :
    readContainer e (xs.map (fun x => remark x ++ [10]) ++ ls) = readContainer e ls := by
  induction xs with
  | nil => rfl
  | cons x xs ih =>
    rw [List.map_cons, List.cons_append, readContainer, if_pos (remark_head x), ih]

theorem entries_remarks (e : Env) (c : SoInfo) (xs : List (Option Str)) (ls : List Str) (acc : Acc) :
    entries e c (xs.map (fun x => remark x ++ [10]) ++ ls) acc = entries e c ls acc := by
  induction xs with
  | nil => rfl
  | cons x xs ih =>
    rw [List.map_cons, List.cons_append, entries, entry, if_pos (remark_head x), bind_ok, ih]

theorem readContainer_path (e : Env) (path : Str) (i : SoInfo) (ls : List Str) (hl : e.livepatch = none)
    (hne : path ≠ []) (hp : ∀ x ∈ path, PathChar x) (h33 : path.head? ≠ some 33) (hi : IsLib e path i) :
    readContainer e ((path ++ [10]) :: ls) = .ok (i, ls) := by
  have hh : (path ++ [10]).head? = path.head? := by cases path <;> simp_all
  rw [readContainer, hh, if_neg, hl, Option.getD_none, chomp_line (fun h => (hp 0 h).1 rfl), openInfo_lib hi]
  · rfl
  · rintro (h | h)
    · cases path with
      | nil => exact absurd rfl hne
      | cons a l => simp at h; exact (hp 10 (by simp [h])).2 rfl
    · exact h33 h

theorem addDependency_meta {e : Env} {path : Str} {id : Bytes} (h : IsMeta e path id) : addDependency e path = .ok id := by
  obtain ⟨hl, f, rest, h1, h2⟩ := h
  rw [addDependency, h1]
  simp only [h2]
  rw [if_neg (by simp), if_neg (by simp [hl]), List.take_left' hl]

theorem readDeps_paths (e : Env) (ps : List Str) (ids : List Bytes) (ls : List Str) (acc : List Bytes)
    (hp : ∀ s ∈ ps, ∀ x ∈ s, PathChar x) (h : All₂ (IsMeta e) ps ids) (hls : ∀ l ∈ ls.head?, l.head? ≠ some 42) :
    readDeps e (ps.map (fun p => 42 :: p ++ [10]) ++ ls) acc = .ok (ids.reverse ++ acc, ls) := by
  induction ps generalizing ids acc with
  | nil =>
    rw [all2_left_nil h]
    cases ls with
    | nil => rfl
    | cons l ls =>
      have hne := hls l (by simp)
      show readDeps e (l :: ls) acc = _
      rw [readDeps, if_neg hne]
      rfl
  | cons p ps ih =>
    cases ids with
    | nil => exact absurd h.1 (by simp)
    | cons id ids =>
      rw [all2_cons] at h
      have hc : chomp (42 :: p ++ [10]) = 42 :: p := by
        rw [show (42 :: p ++ [10] : Str) = (42 :: p) ++ [10] from rfl, chomp_line]
        intro h0
        rcases List.mem_cons.mp h0 with h0 | h0
        · exact absurd h0 (by decide)
        · exact (hp p (by simp) 0 h0).1 rfl
      rw [List.map_cons, List.cons_append, readDeps, if_pos (by rfl), hc]
      rw [List.drop_one, List.tail_cons, addDependency_meta h.1, bind_ok, ih ids (id :: acc) (fun s hs => hp s (by simp [hs])) h.2]
      simp

theorem name_no {s : Str} (h : Name s) : 58 ∉ s ∧ 0 ∉ s ∧ 10 ∉ s :=
  ⟨fun hc => (h.2 _ hc).2 rfl, fun hc => (h.2 _ hc).1.1 rfl, fun hc => (h.2 _ hc).1.2 rfl⟩

theorem name_head {s : Str} (h : Name s) : ∃ a l, s = a :: l ∧ a ≠ 10 ∧ a ≠ 58 := by
  cases s with
  | nil => exact absurd rfl h.1
  | cons a l => exact ⟨a, l, rfl, (h.2 a (by simp)).1.2, (h.2 a (by simp)).2⟩

theorem takeWhile_colon {s r : Str} (h : 58 ∉ s) :
    (s ++ 58 :: r).takeWhile (· != 58) = s ∧ (s ++ 58 :: r).dropWhile (· != 58) = 58 :: r := by
  induction s with
  | nil => simp
  | cons c s ih =>
    simp only [List.mem_cons, not_or] at h
    have hc : (c != 58) = true := by simp; exact Ne.symm h.1
    rw [List.cons_append, List.takeWhile_cons, List.dropWhile_cons, hc]
    simp only [if_true]
    rw [(ih h.2).1, (ih h.2).2]
    exact ⟨rfl, rfl⟩

theorem funcLine_good {t c : SoInfo} {old new : Str} (ho : Name old) (hn : Name new) (h1 : Has t old) (h2 : Has c new) :
    funcLine t c (old ++ 58 :: new) = .ok (old, new) := by
  obtain ⟨a, l, hl, -, ha⟩ := name_head ho
  obtain ⟨b, m, hm, -, hb⟩ := name_head hn
  obtain ⟨s, hs, -⟩ := getSymbol_has h1
  obtain ⟨s', hs', -⟩ := getSymbol_has h2
  have hlast : (old ++ 58 :: new).getLast? ≠ some 58 := by
    intro hc
    have : (old ++ 58 :: new).getLast? = new.getLast? := by
      rw [hm, List.getLast?_append, List.getLast?_cons_cons]; simp [List.getLast?_cons]
    rw [this] at hc
    exact (name_no hn).1 (List.mem_of_getLast? hc)
  have hhead : (old ++ 58 :: new).head? ≠ some 58 := by
    rw [hl]; simpa using ha
  have hd : (58 :: new).dropWhile (· == 58) = new := by
    have hb' : (b == 58) = false := by simpa using hb
    rw [hm]; simp [List.dropWhile_cons, hb']
  unfold funcLine
  rw [if_neg (by simp), if_neg hlast, if_neg hhead]
  simp only
  rw [(takeWhile_colon (name_no ho).1).1, (takeWhile_colon (name_no ho).1).2, hd,
    takeWhile_all (l := new) (fun x hx => by simp; exact (hn.2 x hx).2), hs]
  simp only
  rw [if_neg hn.1, hs']

theorem mark_strip (tls : Bool) (tn rest : Str) (h : tls = false → tn.head? ≠ some 37) (hne : tn ≠ []) :
    tlsMark ((mark tls).drop 1 ++ (tn ++ rest)) = (tls, tn ++ rest) := by
  cases tls with
  | true => rfl
  | false =>
    simp only [mark, Bool.false_eq_true, if_false, List.drop_one, List.tail_cons, List.nil_append]
    cases tn with
    | nil => exact absurd rfl hne
    | cons a l =>
      have ha : a ≠ 37 := by simpa using h rfl
      unfold tlsMark
      split
      · rename_i heq; injection heq with h1 h2; exact absurd h1 ha
      · rfl

/-- The reference of an entry with symbols, before zero offsets are looked up again. -/
theorem refLine_ref {t c : SoInfo} {tls : Bool} {tn rn : Str} (ht : Name tn) (hr : Name rn)
    (h37 : tls = false → tn.head? ≠ some 37) (h1 : Has t tn) (h2 : Has c rn) :
    ∃ a b, getSymbol t tn = some a ∧ Spec.At c rn b ∧
      refLine t c ((mark tls).drop 1 ++ (tn ++ 58 :: rn)) = .ok ⟨tn, rn, a.offset.toNat, b, tls⟩ := by
  obtain ⟨s, hs, -⟩ := getSymbol_has h1
  obtain ⟨s', hs', ha'⟩ := getSymbol_has h2
  refine ⟨s, s'.offset.toNat, hs, ha', ?_⟩
  unfold refLine
  rw [mark_strip tls tn _ h37 ht.1]
  simp only [strchr_some (name_no ht).1, strchr_none (name_no hr).1, hs, hs']

theorem refLine_refAt {t c : SoInfo} {tls : Bool} {tn rn a b : Str} (ht : Name tn) (hr : Name rn)
    (h37 : tls = false → tn.head? ≠ some 37) (ha : Hex a) (hb : Hex b) (hav : hexValue a < 2 ^ 63) (hbv : hexValue b < 2 ^ 63) :
    refLine t c ((mark tls).drop 1 ++ (tn ++ 58 :: (rn ++ 58 :: (a ++ 58 :: b)))) = .ok ⟨tn, rn, hexValue a, hexValue b, tls⟩ := by
  have h58 : 58 ∉ a := fun h => (hex_not_space (ha.2 _ h)).2.2.2.2.2.1 rfl
  unfold refLine
  rw [mark_strip tls tn _ h37 ht.1]
  simp only [strchr_some (name_no ht).1, strchr_some (name_no hr).1, strchr_some h58, strtol16_hex ha hav, strtol16_hex hb hbv]

theorem hex_no {s : Str} (h : Hex s) : 0 ∉ s ∧ 10 ∉ s :=
  ⟨fun hc => (hex_not_space (h.2 _ hc)).2.2.2.2.2.2.1 rfl, fun hc => (hex_not_space (h.2 _ hc)).2.2.2.2.2.2.2 rfl⟩

theorem mark_no (tls : Bool) : 0 ∉ mark tls ∧ 10 ∉ mark tls := by cases tls <;> decide

theorem text_no10 {t c : SoInfo} {x : Entry} (h : x.Good t c) : 10 ∉ x.text := by
  cases x with
  | func o n =>
    obtain ⟨h1, h2, -⟩ := h
    simp [Entry.text, (name_no h1).2.2, (name_no h2).2.2]
  | ref tls a b =>
    obtain ⟨h1, h2, -⟩ := h
    simp [Entry.text, (name_no h1).2.2, (name_no h2).2.2, (mark_no tls).2]
  | refAt tls a b u v =>
    obtain ⟨h1, h2, -, h3, h4, -⟩ := h
    simp [Entry.text, (name_no h1).2.2, (name_no h2).2.2, (mark_no tls).2, (hex_no h3).2, (hex_no h4).2]
  | comment s =>
    have h : 10 ∉ s := h
    simp [Entry.text, h]
  | blank => simp [Entry.text]

/-- What an entry adds. -/
inductive Adds (t c : SoInfo) : Entry → Acc → Acc → Prop
  | func {o n acc} : Adds t c (.func o n) acc { acc with units := acc.units ++ [(o, n)] }
  | ref {tls tn rn s b acc} (h : getSymbol t tn = some s) (hb : Spec.At c rn b) :
      Adds t c (.ref tls tn rn) acc { acc with refs := ⟨tn, rn, s.offset.toNat, b, tls⟩ :: acc.refs }
  | refAt {tls tn rn a b acc} (h : 0 < hexValue a) :
      Adds t c (.refAt tls tn rn a b) acc { acc with refs := ⟨tn, rn, hexValue a, hexValue b, tls⟩ :: acc.refs }
  | comment {s acc} : Adds t c (.comment s) acc acc
  | blank {acc} : Adds t c .blank acc acc

theorem ref_head (tls : Bool) (s : Str) : ((mark tls ++ s) ++ [10]).head? = some 35 := by cases tls <;> rfl

theorem entry_good {e : Env} {t c : SoInfo} {x : Entry} (h : x.Good t c) {acc : Acc} (ho : acc.obj = some t) :
    ∃ acc', entry e c acc (x.text ++ [10]) = .ok acc' ∧ Adds t c x acc acc' := by
  cases x with
  | func o n =>
    obtain ⟨h1, h2, h3, h4, h5⟩ := h
    refine ⟨_, ?_, .func⟩
    have hh : ((o ++ 58 :: n) ++ [10]).head? = o.head? := by
      obtain ⟨a, l, rfl, -⟩ := name_head h1
      rfl
    obtain ⟨a, l, hl, h10, -⟩ := name_head h1
    have hx := h3 a (by rw [hl]; simp)
    have hca : chomp (o ++ 58 :: n ++ [10]) = o ++ 58 :: n := chomp_line (by simp [(name_no h1).2.1, (name_no h2).2.1])
    unfold entry
    simp only [Entry.text, hh, ho]
    rw [hl]
    simp only [List.head?_cons, Option.some.injEq]
    rw [if_neg (fun hh => hh.elim h10 hx.1), if_neg hx.2.1, if_neg hx.2.2, ← hl, hca,
      funcLine_good h1 h2 h4 h5]
    rfl
  | ref tls tn rn =>
    obtain ⟨h1, h2, h3, h4, h5⟩ := h
    obtain ⟨s, b, hs, hb, hr⟩ := refLine_ref h1 h2 h3 h4 h5
    refine ⟨_, ?_, .ref hs hb⟩
    have hca : chomp (mark tls ++ (tn ++ 58 :: rn) ++ [10]) = mark tls ++ (tn ++ 58 :: rn) :=
      chomp_line (by simp [(name_no h1).2.1, (name_no h2).2.1, (mark_no tls).1])
    have hd : (mark tls ++ (tn ++ 58 :: rn)).drop 1 = (mark tls).drop 1 ++ (tn ++ 58 :: rn) := by cases tls <;> rfl
    unfold entry
    simp only [Entry.text, ref_head, ho]
    rw [if_neg (by simp), if_neg (by simp), if_pos trivial, hca, hd, hr]
    rfl
  | refAt tls tn rn a b =>
    obtain ⟨h1, h2, h3, h4, h5, h6, h7, h8⟩ := h
    refine ⟨_, ?_, .refAt h6⟩
    have hca : chomp (mark tls ++ (tn ++ 58 :: (rn ++ 58 :: (a ++ 58 :: b))) ++ [10]) = mark tls ++ (tn ++ 58 :: (rn ++ 58 :: (a ++ 58 :: b))) :=
      chomp_line (by simp [(name_no h1).2.1, (name_no h2).2.1, (mark_no tls).1, (hex_no h4).1, (hex_no h5).1])
    have hd : (mark tls ++ (tn ++ 58 :: (rn ++ 58 :: (a ++ 58 :: b)))).drop 1 = (mark tls).drop 1 ++ (tn ++ 58 :: (rn ++ 58 :: (a ++ 58 :: b))) := by
      cases tls <;> rfl
    unfold entry
    simp only [Entry.text, ref_head, ho]
    rw [if_neg (by simp), if_neg (by simp), if_pos trivial, hca, hd, refLine_refAt h1 h2 h3 h4 h5 h7 h8]
    rfl
  | comment s => exact ⟨acc, by simp [entry, Entry.text], .comment⟩
  | blank => exact ⟨acc, by simp [entry, Entry.text], .blank⟩

theorem adds_obj {t c : SoInfo} {x : Entry} {acc acc' : Acc} (h : Adds t c x acc acc') : acc'.obj = acc.obj := by
  cases h <;> rfl

/-- What a list of entries adds. -/
inductive AddsAll (t c : SoInfo) : List Entry → Acc → Acc → Prop
  | nil {acc} : AddsAll t c [] acc acc
  | cons {x xs acc acc' acc''} (h : Adds t c x acc acc') (h' : AddsAll t c xs acc' acc'') : AddsAll t c (x :: xs) acc acc''

theorem entries_good {e : Env} {t c : SoInfo} {xs : List Entry} (h : ∀ x ∈ xs, x.Good t c) {acc : Acc} (ho : acc.obj = some t) :
    ∃ acc', entries e c (xs.map fun x => x.text ++ [10]) acc = .ok acc' ∧ AddsAll t c xs acc acc' ∧ acc'.obj = some t := by
  induction xs generalizing acc with
  | nil => exact ⟨acc, rfl, .nil, ho⟩
  | cons x xs ih =>
    obtain ⟨acc', h1, h2⟩ := entry_good (e := e) (h x (by simp)) ho
    have ho' : acc'.obj = some t := (adds_obj h2).trans ho
    obtain ⟨acc'', h3, h4, h5⟩ := ih (fun y hy => h y (by simp [hy])) ho'
    refine ⟨acc'', ?_, .cons h2 h4, h5⟩
    rw [List.map_cons, entries, h1, bind_ok, h3]

/-- The references as collected: `0` offsets are those of the symbol that is found. -/
def Resolved (t : SoInfo) (r : Ref) : Prop :=
  r.targetOffset ≠ 0 ∨ ∃ s, getSymbol t r.targetName = some s ∧ s.offset.toNat = r.targetOffset

theorem adds_refFor {t c : SoInfo} {xs : List Entry} {acc acc' : Acc} (h : AddsAll t c xs acc acc') :
    acc'.units = acc.units ++ funcs xs ∧ ∃ rs, acc'.refs.reverse = acc.refs.reverse ++ rs ∧ All₂ (RefFor t c) rs (refs xs) ∧
      ∀ r ∈ rs, Resolved t r := by
  induction h with
  | nil => exact ⟨by simp [funcs], [], by simp, all2_nil _, by simp⟩
  | cons h h' ih =>
    obtain ⟨h1, rs, h2, h3, h4⟩ := ih
    cases h with
    | func =>
      refine ⟨by rw [h1]; simp [funcs], rs, h2, ?_, h4⟩
      simpa [refs] using h3
    | @ref tls tn rn s b acc hs hb =>
      refine ⟨by rw [h1]; simp [funcs], ⟨tn, rn, s.offset.toNat, b, tls⟩ :: rs, ?_, ?_, ?_⟩
      · rw [h2]; simp
      · simp only [refs, List.filter_cons, if_true] at h3 ⊢
        rw [all2_cons]
        exact ⟨⟨rfl, rfl, rfl, getSymbol_at hs, hb⟩, h3⟩
      · intro r hr
        rcases List.mem_cons.mp hr with rfl | hr
        · exact Or.inr ⟨_, hs, rfl⟩
        · exact h4 r hr
    | @refAt tls tn rn a b acc ha =>
      refine ⟨by rw [h1]; simp [funcs], ⟨tn, rn, hexValue a, hexValue b, tls⟩ :: rs, ?_, ?_, ?_⟩
      · rw [h2]; simp
      · simp only [refs, List.filter_cons, if_true] at h3 ⊢
        rw [all2_cons]
        exact ⟨⟨rfl, rfl, rfl, rfl, rfl⟩, h3⟩
      · intro r hr
        rcases List.mem_cons.mp hr with rfl | hr
        · exact Or.inl (by simp; omega)
        · exact h4 r hr
    | comment =>
      exact ⟨by rw [h1]; simp [funcs], rs, h2, by simpa [refs] using h3, h4⟩
    | blank =>
      exact ⟨by rw [h1]; simp [funcs], rs, h2, by simpa [refs] using h3, h4⟩

theorem getTargetRefAddrs_resolved {t : SoInfo} {rs : List Ref} (h : ∀ r ∈ rs, Resolved t r) : getTargetRefAddrs t rs = .ok rs := by
  induction rs with
  | nil => rfl
  | cons r rs ih =>
    rw [getTargetRefAddrs]
    have ih := ih (fun x hx => h x (by simp [hx]))
    by_cases h0 : r.targetOffset ≠ 0
    · rw [if_pos h0, ih]; rfl
    · rw [if_neg h0]
      rcases h r (by simp) with h1 | ⟨s, hs, hv⟩
      · exact absurd h1 h0
      · simp only [hs, ih, hv]
        rfl

theorem getTargetAddrs_has {t : SoInfo} {us : List (Str × Str)} (h : ∀ u ∈ us, Has t u.1) :
    ∃ vs, getTargetAddrs t us = .ok vs ∧ All₂ (UnitFor t) vs us := by
  induction us with
  | nil => exact ⟨[], rfl, all2_nil _⟩
  | cons u us ih =>
    obtain ⟨vs, h1, h2⟩ := ih (fun x hx => h x (by simp [hx]))
    obtain ⟨s, hs, ha⟩ := getSymbol_has (h u (by simp))
    refine ⟨⟨u.1, u.2, s.offset.toNat⟩ :: vs, ?_, ?_⟩
    · rw [getTargetAddrs, hs]
      simp only [h1]
      rfl
    · rw [all2_cons]
      exact ⟨⟨rfl, rfl, ha⟩, h2⟩

theorem texts_no10 {d : Desc} {e : Env} {c t : SoInfo} {deps : List Bytes} (h : d.Good e c t deps) : ∀ x ∈ d.texts, 10 ∉ x := by
  have hr : ∀ o : Option Str, (∀ s ∈ o, 10 ∉ s) → 10 ∉ remark o := by
    intro o ho
    cases o with
    | none => simp [remark]
    | some s => simp [remark, ho s rfl]
  intro x hx
  simp only [Desc.texts, List.mem_append, List.mem_cons, List.mem_map] at hx
  rcases hx with ⟨o, ho, rfl⟩ | rfl | ⟨p, hp, rfl⟩ | ⟨o, ho, rfl⟩ | rfl | ⟨y, hy, rfl⟩
  · exact hr o (h.head o ho)
  · exact fun hc => (h.container.2.1 10 hc).2 rfl
  · intro hc
    rcases List.mem_cons.mp hc with hc | hc
    · exact absurd hc (by decide)
    · exact (h.depPaths p hp 10 hc).2 rfl
  · exact hr o (h.mid o ho)
  · intro hc
    rcases List.mem_cons.mp hc with hc | hc
    · exact absurd hc (by decide)
    · exact (h.target.1 10 hc).2 rfl
  · exact text_no10 (h.entries y hy)

/-- A well-formed description is read up to its end, whatever follows. -/
theorem parse_good {d : Desc} {e : Env} {c t : SoInfo} {deps : List Bytes} (h : d.Good e c t deps) :
    ∃ acc, acc.obj = some t ∧ AddsAll t c d.entries ⟨some t, [], []⟩ acc ∧ ∀ rest, parseDescription e (d.render ++ rest) =
      (entries e c (lines rest) acc >>= fun acc => .ok (deps.reverse, acc)) := by
  obtain ⟨acc, h1, h2, h3⟩ := entries_good (e := e) h.entries (acc := ⟨some t, [], []⟩) rfl
  refine ⟨acc, h3, h2, fun rest => ?_⟩
  have hl : lines (d.render ++ rest) = d.head.map (fun x => remark x ++ [10]) ++ ((d.container ++ [10]) ::
      (d.deps.map (fun p => 42 :: p ++ [10]) ++ (d.mid.map (fun x => remark x ++ [10]) ++ ((64 :: d.target) ++ [10]) ::
        (d.entries.map (fun x => x.text ++ [10]) ++ lines rest)))) := by
    rw [Desc.render, lines_texts (texts_no10 h), Desc.texts]
    simp [List.map_append, Function.comp_def]
  unfold parseDescription
  rw [hl, readContainer_remarks, readContainer_path e _ c _ h.noLivepatch h.container.1 h.container.2.1 h.container.2.2 h.containerFile,
    bind_ok]
  simp only
  rw [readDeps_paths e d.deps deps _ [] h.depPaths h.depFiles]
  · simp only [bind_ok, List.append_nil]
    rw [entries_remarks, entries]
    have he : entry e c ⟨none, [], []⟩ ((64 :: d.target) ++ [10]) = .ok ⟨some t, [], []⟩ := by
      have hc : chomp ((64 :: d.target) ++ [10]) = 64 :: d.target := by
        apply chomp_line
        intro h0
        rcases List.mem_cons.mp h0 with h0 | h0
        · exact absurd h0 (by decide)
        · exact (h.target.1 0 h0).1 rfl
      unfold entry
      rw [hc]
      simp only [List.cons_append, List.head?_cons, List.drop_one, List.tail_cons, h.noTarget, Option.getD_none,
        openInfo_lib h.targetFile]
      rw [if_neg (by decide), if_pos trivial, if_neg (by simp), if_neg (by simp [pathMax]; exact h.target.2)]
      rfl
    rw [he, bind_ok, entries_append, h1, bind_ok]
    rfl
  · intro l hl
    cases hm : d.mid with
    | nil => rw [hm] at hl; simp at hl; subst hl; simp
    | cons o os =>
      rw [hm] at hl
      simp at hl
      subst hl
      cases o <;> simp [remark]

end Verif.Dsc
