import Verif.SelfWrite.Spec
import Verif.InsnQueue.Lemmas

namespace Verif.SelfWrite

open Verif.InsnQueue (Queue Event Step step)

/-! ### lines -/

theorem set_take_drop {α} (buf : List α) (off : Nat) (c : α) (h : off < buf.length) :
    buf.set off c = buf.take off ++ c :: buf.drop (off + 1) := by
  rw [List.set_eq_take_append_cons_drop, if_pos h]

theorem readLine_got (fuel off : Nat) (buf l rest : Bytes) (hl : ∀ b ∈ l, b ≠ 10)
    (hf : l.length < fuel) (hb : off + fuel ≤ buf.length) :
    readLine fuel off buf (l ++ 10 :: rest) =
      (.got (off + l.length), buf.take off ++ (l ++ 10 :: buf.drop (off + l.length + 1)), rest) := by
  induction l generalizing fuel off buf with
  | nil =>
    cases fuel with
    | zero => simp at hf
    | succ fuel =>
      simp only [List.nil_append, readLine, if_pos, List.length_nil, Nat.add_zero]
      rw [set_take_drop _ _ _ (by omega)]
  | cons c l ih =>
    cases fuel with
    | zero => simp at hf
    | succ fuel =>
      have hc : c ≠ 10 := hl c (by simp)
      simp only [List.cons_append, readLine, if_neg hc]
      rw [ih fuel (off + 1) _ (fun b hb => hl b (by simp [hb])) (by simpa using hf)
        (by simpa using by omega)]
      have e1 : off + 1 + l.length = off + (c :: l).length := by simp; omega
      rw [e1]
      congr 2
      rw [set_take_drop _ _ _ (by omega)]
      have h2 : (buf.take off ++ c :: buf.drop (off + 1)).take (off + 1) = buf.take off ++ [c] := by
        rw [List.take_append, List.length_take, Nat.min_eq_left (by omega)]
        rw [List.take_of_length_le (by simp; omega)]
        have : off + 1 - off = 1 := by omega
        rw [this]; simp
      have h3 : (buf.take off ++ c :: buf.drop (off + 1)).drop (off + (c :: l).length + 1) =
          buf.drop (off + (c :: l).length + 1) := by
        rw [List.drop_append, List.length_take, Nat.min_eq_left (by omega)]
        rw [List.drop_of_length_le (by simp; omega)]
        have : off + (c :: l).length + 1 - off = (l.length + 1) + 1 := by simp; omega
        rw [this, List.drop_succ_cons, List.drop_drop]
        simp; congr 1; omega
      rw [h2, h3]; simp

theorem readLine_long (fuel off : Nat) (buf l rest : Bytes) (hl : ∀ b ∈ l, b ≠ 10)
    (hf : fuel ≤ l.length) : (readLine fuel off buf (l ++ rest)).1 = .error := by
  induction l generalizing fuel off buf with
  | nil => simp at hf; subst hf; rfl
  | cons c l ih =>
    cases fuel with
    | zero => rfl
    | succ fuel =>
      have hc : c ≠ 10 := hl c (by simp)
      simp only [List.cons_append, readLine, if_neg hc]
      exact ih fuel _ _ (fun b hb => hl b (by simp [hb])) (by simpa using hf)

/-! ### numbers -/

theorem hexVal_hexChar {d : Nat} (h : d < 16) : hexVal (hexChar d) = some d := by
  have : ∀ d : Fin 16, hexVal (hexChar d.val) = some d.val := by decide
  exact this ⟨d, h⟩

/-- A byte that is a lower-case hexadecimal digit. -/
def IsHex (b : UInt8) : Prop := ∃ d, d < 16 ∧ b = hexChar d

theorem toHex_isHex (n : Nat) : ∀ b ∈ toHex n, IsHex b := by
  induction n using toHex.induct with
  | case1 n h => intro b hb; rw [toHex, if_pos h] at hb; simp at hb; exact ⟨n, h, hb⟩
  | case2 n h ih =>
    intro b hb
    rw [toHex, if_neg h] at hb
    simp at hb
    rcases hb with hb | hb
    · exact ih b hb
    · exact ⟨n % 16, Nat.mod_lt _ (by omega), hb⟩

theorem toHex_ne_nil (n : Nat) : toHex n ≠ [] := by
  rw [toHex]; split <;> simp

theorem hex8_isHex (n : Nat) : ∀ b ∈ hex8 n, IsHex b := by
  intro b hb
  simp only [hex8, List.mem_append, List.mem_replicate] at hb
  rcases hb with ⟨_, rfl⟩ | hb
  · exact ⟨0, by omega, by decide⟩
  · exact toHex_isHex n b hb

theorem hex8_length (n : Nat) : 8 ≤ (hex8 n).length := by
  simp [hex8]; omega

theorem hexRun_append (acc : Nat) (l t : Bytes) (hl : ∀ b ∈ l, IsHex b) :
    hexRun acc (l ++ t) = hexRun (hexRun acc l).1 t ∧ (hexRun acc l).2 = [] := by
  induction l generalizing acc with
  | nil => simp [hexRun]
  | cons b l ih =>
    obtain ⟨d, hd, rfl⟩ := hl b (by simp)
    simp only [List.cons_append, hexRun, hexVal_hexChar hd]
    exact ih _ (fun b hb => hl b (by simp [hb]))

theorem hexRun_toHex (n : Nat) : (hexRun 0 (toHex n)).1 = n := by
  induction n using toHex.induct with
  | case1 n h => rw [toHex, if_pos h]; simp [hexRun, hexVal_hexChar h]
  | case2 n h ih =>
    rw [toHex, if_neg h, (hexRun_append 0 _ _ (toHex_isHex _)).1, ih]
    simp [hexRun, hexVal_hexChar (Nat.mod_lt n (by omega : 16 > 0))]
    omega

theorem hexRun_zeros (k : Nat) : (hexRun 0 (List.replicate k (48 : UInt8))).1 = 0 := by
  induction k with
  | zero => rfl
  | succ k ih =>
    rw [List.replicate_succ]
    have : hexVal 48 = some 0 := by decide
    simp only [hexRun, this]
    exact ih

theorem hexRun_hex8 (n : Nat) (t : Bytes) : hexRun 0 (hex8 n ++ t) = hexRun n t := by
  rw [hex8, List.append_assoc, (hexRun_append 0 _ _ ?_).1, hexRun_zeros,
    (hexRun_append 0 _ _ (toHex_isHex n)).1, hexRun_toHex]
  intro b hb
  simp at hb
  exact ⟨0, by omega, by rw [hb.2]; decide⟩

theorem isHex_not_space {b} (h : IsHex b) : isSpace b = false := by
  obtain ⟨d, hd, rfl⟩ := h
  have : ∀ d : Fin 16, isSpace (hexChar d.val) = false := by decide
  exact this ⟨d, hd⟩

theorem isHex_not_sign {b} (h : IsHex b) : b ≠ 45 ∧ b ≠ 43 ∧ b ≠ 120 ∧ b ≠ 88 := by
  obtain ⟨d, hd, rfl⟩ := h
  have : ∀ d : Fin 16, hexChar d.val ≠ 45 ∧ hexChar d.val ≠ 43 ∧ hexChar d.val ≠ 120 ∧
    hexChar d.val ≠ 88 := by decide
  exact this ⟨d, hd⟩

theorem isHex_hexVal {b} (h : IsHex b) : (hexVal b).isSome := by
  obtain ⟨d, hd, rfl⟩ := h
  rw [hexVal_hexChar hd]; rfl

theorem sign_hex {b : UInt8} {s : Bytes} (h : IsHex b) : sign (b :: s) = (false, b :: s) := by
  obtain ⟨h1, h2, -, -⟩ := isHex_not_sign h
  unfold sign
  split <;> simp_all

theorem skip0x_hex {a b : UInt8} {s : Bytes} (h : IsHex b) : skip0x (a :: b :: s) = a :: b :: s := by
  obtain ⟨-, -, h1, h2⟩ := isHex_not_sign h
  unfold skip0x
  split
  · next heq =>
    simp only [List.cons.injEq] at heq
    obtain ⟨h4, h3, h5⟩ := heq
    rw [if_neg (by rw [← h3]; simp [h1, h2])]
    rw [← h3, h4, h5]
  · rfl

theorem strtoul16_hex8 (n : Nat) (c : UInt8) (t : Bytes) (hn : n < 2 ^ 64) (hc : hexVal c = none) :
    strtoul16 (hex8 n ++ c :: t) = (n, c :: t) := by
  have hl := hex8_length n
  have hi := hex8_isHex n
  have hr : hexRun 0 (hex8 n ++ c :: t) = (n, c :: t) := by
    rw [hexRun_hex8]; simp [hexRun, hc]
  rcases hh : hex8 n with _ | ⟨x, _ | ⟨y, l⟩⟩
  · simp [hh] at hl
  · simp [hh] at hl
  · rw [hh] at hi hr
    have hx := hi x (by simp)
    have hy := hi y (by simp)
    unfold strtoul16
    have hd : (x :: y :: l ++ c :: t).dropWhile isSpace = x :: y :: (l ++ c :: t) := by
      simp [List.dropWhile, isHex_not_space hx]
    rw [hd, sign_hex hx]
    simp only [skip0x_hex hy]
    have hv := isHex_hexVal hx
    rw [if_neg (by simpa [Option.isNone_iff_eq_none, Option.isSome_iff_ne_none] using hv)]
    simp only [List.cons_append] at hr
    rw [hr]
    simp only
    rw [if_neg (by omega)]
    simp

/-! ### a line -/

theorem text_no_newline {m : Mapping} (h : m.Ok) : ∀ b ∈ m.text, b ≠ 10 := by
  intro b hb
  have hx : ∀ {b n}, b ∈ hex8 n → b ≠ 10 := by
    intro b n hb e
    obtain ⟨d, hd, h2⟩ := hex8_isHex n b hb
    have : ∀ d : Fin 16, hexChar d.val ≠ 10 := by decide
    exact this ⟨d, hd⟩ (h2 ▸ e)
  simp only [Mapping.text, List.mem_append] at hb
  rcases hb with (((hb | hb) | hb) | hb) | hb
  · exact hx hb
  · simp at hb; subst hb; decide
  · exact hx hb
  · simp only [List.mem_cons, List.not_mem_nil, or_false] at hb
    rcases hb with hb | hb | hb | hb
    · subst hb; decide
    all_goals (split at hb <;> (subst hb; decide))
  · exact h.2.2 b hb

theorem parseLine_text {m : Mapping} (h : m.Ok) (addr : Nat) (t : Bytes) :
    parseLine addr (m.text ++ t) = if m.Has addr then some m.prot else none := by
  have e : m.text ++ t = hex8 m.start ++ 45 :: (hex8 m.stop ++ 32 ::
      ((if m.prot.r then 114 else 45) :: (if m.prot.w then 119 else 45) ::
        (if m.prot.x then 120 else 45) :: (m.rest ++ t))) := by
    simp [Mapping.text]
  unfold parseLine
  rw [e, strtoul16_hex8 _ _ _ h.1 (by decide)]
  simp only [List.drop_succ_cons, List.drop_zero]
  rw [strtoul16_hex8 _ _ _ h.2.1 (by decide)]
  simp only
  by_cases hh : m.Has addr
  · rw [if_pos hh, if_neg (by unfold Mapping.Has at hh; omega)]
    rcases m with ⟨_, _, ⟨r, w, x⟩, _⟩
    cases r <;> cases w <;> cases x <;> rfl
  · rw [if_neg hh, if_pos (by unfold Mapping.Has at hh; omega)]

theorem text_pos (m : Mapping) : 0 < m.text.length := by
  simp [Mapping.text]; omega

/-! ### the file -/

theorem fileText_cons (m ms) : fileText (m :: ms) = m.text ++ 10 :: fileText ms := by
  simp [fileText]

theorem protLoop_eq (ms : List Mapping) (addr fuel : Nat) (buf : Bytes) (hok : ∀ m ∈ ms, m.Ok)
    (hb : buf.length = lineMax) (hf : ms.length < fuel) :
    protLoop addr fuel buf (fileText ms) = protOf (ms.takeWhile fun m => decide m.Short) addr := by
  induction ms generalizing fuel buf with
  | nil =>
    cases fuel with
    | zero => simp at hf
    | succ fuel => simp [protLoop, fileText, protOf, readLine, lineMax]
  | cons m ms ih =>
    cases fuel with
    | zero => simp at hf
    | succ fuel =>
      have hm := hok m (by simp)
      rw [protLoop, fileText_cons]
      by_cases hs : m.Short
      · rw [readLine_got lineMax 0 buf m.text (fileText ms) (text_no_newline hm) hs (by omega)]
        have hp := text_pos m
        obtain ⟨k, hk⟩ : ∃ k, m.text.length = k + 1 := ⟨m.text.length - 1, by omega⟩
        simp only [Nat.zero_add, hk, List.take_zero, List.nil_append]
        rw [parseLine_text hm]
        simp only [List.takeWhile_cons, decide_eq_true hs, if_true, protOf, List.find?_cons]
        by_cases ha : m.Has addr
        · simp [ha]
        · simp only [ha, if_false, decide_false]
          apply ih
          · intro m' h'; exact hok m' (by simp [h'])
          · have hs' : m.text.length < lineMax := hs
            have hk' := hk
            simp only [List.length_append, List.length_cons, List.length_drop, hb]
            omega
          · simpa using hf
      · have hl := readLine_long lineMax 0 buf m.text (10 :: fileText ms) (text_no_newline hm)
          (by unfold Mapping.Short at hs; unfold lineMax; omega)
        split
        · simp [hs, protOf]
        · simp [hs, protOf]
        · next heq => rw [heq] at hl; cases hl

theorem fileText_length (ms : List Mapping) : ms.length ≤ (fileText ms).length := by
  induction ms with
  | nil => simp
  | cons m ms ih => rw [fileText_cons]; simp; omega

theorem protGet_eq (ms : List Mapping) (addr : Nat) (junk : Bytes) (hok : ∀ m ∈ ms, m.Ok)
    (hb : junk.length = lineMax) :
    protGet junk (fileText ms) addr = protOf (ms.takeWhile fun m => decide m.Short) addr :=
  protLoop_eq ms addr _ junk hok hb (by have := fileText_length ms; omega)

/-! ### pages -/

theorem numPages_eq {ps a n : Nat} (h : a + n < 2 ^ 64) :
    numPages ps a n = 1 + ((a + n) / ps - a / ps) := by
  unfold numPages
  rw [if_pos h]
  omega

theorem pageAddr_eq {ps a n j : Nat} (h : a + n < 2 ^ 64) (hj : a / ps + j ≤ (a + n) / ps) :
    pageAddr ps a j = (a / ps + j) * ps := by
  unfold pageAddr
  rw [← Nat.add_mul]
  have h2 : (a + n) / ps * ps ≤ a + n := Nat.div_mul_le_self _ _
  have h3 : (a / ps + j) * ps ≤ (a + n) / ps * ps := Nat.mul_le_mul_right _ hj
  exact Nat.mod_eq_of_lt (by omega)

theorem takeWhile_all {α} {p : α → Bool} {l : List α} (h : ∀ x ∈ l, p x = true) : l.takeWhile p = l := by
  induction l with
  | nil => rfl
  | cons x l ih => simp [h x (by simp), ih (fun y hy => h y (by simp [hy]))]

theorem getProt_honest {sys : Sys} {limit} (hs : Honest sys limit) {pages : Nat → Option Prot}
    (hl : ∀ p, limit ≤ p → pages p = none) (i j page : Nat) :
    getProt sys pages i j (page * sys.pageSize) =
      match sys.openErr i j with
      | some e => .error e
      | none => match pages page with
        | none => .error (sys.oldErrno i j)
        | some p => .ok p := by
  obtain ⟨_, _, hj, h⟩ := hs
  obtain ⟨ms, hm, ht, hp⟩ := h pages hl
  unfold getProt
  cases sys.openErr i j with
  | some e => rfl
  | none =>
    simp only
    rw [ht, protGet_eq ms _ _ (fun m h => (hm m h).1) (hj i j),
      takeWhile_all (by intro m h; simpa using (hm m h).2), hp]
    all_goals (cases pages page <;> rfl)

/-- The protections of the pages `p0 .. p0+n-1`, all mapped. -/
def Prots (pages : Nat → Option Prot) (p0 : Nat) (l : List Prot) : Prop :=
  ∀ (k : Nat) p, l[k]? = some p → pages (p0 + k) = some p

theorem getProts_ok {sys : Sys} {limit} (hs : Honest sys limit) {pages : Nat → Option Prot}
    (hl : ∀ p, limit ≤ p → pages p = none) (i a n todo j : Nat) (h : a + n < 2 ^ 64)
    (hj : todo ≠ 0 → a / sys.pageSize + j + todo ≤ (a + n) / sys.pageSize + 1) (l : List Prot) :
    getProts sys pages i a todo j = .ok l ↔
      l.length = todo ∧ Prots pages (a / sys.pageSize + j) l ∧
        ∀ k, k < todo → sys.openErr i (j + k) = none := by
  induction todo generalizing j l with
  | zero =>
    simp only [getProts, Except.ok.injEq]
    constructor
    · rintro rfl; simp [Prots]
    · rintro ⟨h1, -, -⟩; exact (List.length_eq_zero_iff.mp h1).symm
  | succ todo ih =>
    have hj' := hj (by omega)
    rw [getProts, pageAddr_eq h (by omega), getProt_honest hs hl]
    cases ho : sys.openErr i j with
    | some e =>
      simp only [reduceCtorEq, false_iff]
      rintro ⟨-, -, h3⟩
      have := h3 0 (by omega)
      simp [ho] at this
    | none =>
      cases hpg : pages (a / sys.pageSize + j) with
      | none =>
        simp only [reduceCtorEq, false_iff]
        rintro ⟨h1, h2, -⟩
        cases l with
        | nil => simp at h1
        | cons p l => have := h2 0 p (by simp); simp [hpg] at this
      | some p =>
        simp only
        have ih' := fun l => ih (j + 1) (by intro _; omega) l
        cases hg : getProts sys pages i a todo (j + 1) with
        | error e =>
          simp only [reduceCtorEq, false_iff]
          rintro ⟨h1, h2, h3⟩
          cases l with
          | nil => simp at h1
          | cons p' l =>
            have := (ih' l).mpr ⟨by simpa using h1, ?_, ?_⟩
            · simp [hg] at this
            · intro k p hk
              have := h2 (k + 1) p (by simpa using hk)
              rw [show a / sys.pageSize + (j + 1) + k = a / sys.pageSize + j + (k + 1) by omega]
              exact this
            · intro k hk
              rw [show j + 1 + k = j + (k + 1) by omega]
              exact h3 (k + 1) (by omega)
        | ok ps =>
          simp only [Except.ok.injEq]
          obtain ⟨g1, g2, g3⟩ := (ih' ps).mp hg
          constructor
          · rintro rfl
            refine ⟨by simp [g1], ?_, ?_⟩
            · intro k q hk
              cases k with
              | zero => simp at hk; subst hk; simpa using hpg
              | succ k =>
                have := g2 k q (by simpa using hk)
                rw [show a / sys.pageSize + j + (k + 1) = a / sys.pageSize + (j + 1) + k by omega]
                exact this
            · intro k hk
              cases k with
              | zero => simpa using ho
              | succ k =>
                rw [show j + (k + 1) = j + 1 + k by omega]
                exact g3 k (by omega)
          · rintro ⟨h1, h2, h3⟩
            cases l with
            | nil => simp at h1
            | cons p' l =>
              have e1 := h2 0 p' (by simp)
              simp only [Nat.add_zero, hpg, Option.some.injEq] at e1
              have e2 := (ih' l).mpr ⟨by simpa using h1, ?_, ?_⟩
              · rw [hg] at e2; injection e2 with e2; rw [e1, e2]
              · intro k p hk
                have := h2 (k + 1) p (by simpa using hk)
                rw [show a / sys.pageSize + (j + 1) + k = a / sys.pageSize + j + (k + 1) by omega]
                exact this
              · intro k hk
                rw [show j + 1 + k = j + (k + 1) by omega]
                exact h3 (k + 1) (by omega)

/-- Pages after `mprotect` of the pages from `p0` on to the protections of the list. -/
def overlay (pages : Nat → Option Prot) (p0 : Nat) (l : List Prot) : Nat → Option Prot :=
  fun q => if p0 ≤ q ∧ q < p0 + l.length then l[q - p0]? else pages q

/-- Outcome of the loops over `mprotect`: the first `k` pages are changed, and either all are or the
`k`-th was refused. -/
theorem setProts_eq {ps : Nat} (hp : 0 < ps) (a n : Nat) (refuse : Nat → Option Nat) (l : List Prot) (j : Nat)
    (pages : Nat → Option Prot) (h : a + n < 2 ^ 64)
    (hj : l ≠ [] → a / ps + j + l.length ≤ (a + n) / ps + 1)
    (hm : ∀ k, k < l.length → pages (a / ps + j + k) ≠ none) :
    ∃ k, k ≤ l.length ∧ (∀ k', k' < k → refuse (j + k') = none) ∧
      setProts ps a refuse l j pages = (overlay pages (a / ps + j) (l.take k),
        if k = l.length then none else refuse (j + k)) ∧
      (k < l.length → refuse (j + k) ≠ none) := by
  induction l generalizing j pages with
  | nil =>
    refine ⟨0, by simp, by simp, ?_, by simp⟩
    simp only [setProts, List.take_nil, List.length_nil, if_true]
    congr 1
    funext q
    simp only [overlay, List.length_nil, Nat.add_zero]
    rw [if_neg (by omega)]
  | cons p l ih =>
    have hj' := hj (by simp)
    simp only [List.length_cons] at hj'
    have h0 := hm 0 (by simp)
    rw [Nat.add_zero] at h0
    obtain ⟨p0, hp0⟩ := Option.ne_none_iff_exists'.mp h0
    rw [setProts, pageAddr_eq h (by omega), Nat.mul_div_cancel _ hp]
    unfold mprotect
    rw [hp0]
    cases hr : refuse j with
    | some e =>
      refine ⟨0, by simp, by simp, ?_, by simp [hr]⟩
      simp only [List.take_zero, List.length_cons]
      rw [if_neg (by omega), Nat.add_zero, hr]
      congr 1
      funext q
      simp only [overlay, List.length_nil, Nat.add_zero]
      rw [if_neg (by omega)]
    | none =>
      simp only
      obtain ⟨k, k1, k2, k3, k4⟩ := ih (j + 1)
        (fun q => if q = a / ps + j then some p else pages q)
        (by intro _; omega)
        (by intro k hk
            have := hm (k + 1) (by simpa using hk)
            rw [if_neg (by omega), show a / ps + (j + 1) + k = a / ps + j + (k + 1) by omega]
            exact this)
      refine ⟨k + 1, by simpa using k1, ?_, ?_, ?_⟩
      · intro k' hk'
        cases k' with
        | zero => simpa using hr
        | succ k' => rw [show j + (k' + 1) = j + 1 + k' by omega]; exact k2 k' (by omega)
      · rw [k3]
        congr 1
        · funext q
          simp only [overlay, List.take_succ_cons, List.length_cons, List.length_take]
          rw [Nat.min_eq_left k1]
          by_cases hq : q = a / ps + j
          · subst hq
            rw [if_neg (by omega), if_pos rfl, if_pos (by omega)]
            simp
          · rw [if_neg hq]
            by_cases hq2 : a / ps + (j + 1) ≤ q ∧ q < a / ps + (j + 1) + k
            · rw [if_pos hq2, if_pos (by omega)]
              obtain ⟨d, rfl⟩ : ∃ d, q = a / ps + (j + 1) + d := ⟨q - (a / ps + (j + 1)), by omega⟩
              rw [show a / ps + (j + 1) + d - (a / ps + (j + 1)) = d by omega,
                show a / ps + (j + 1) + d - (a / ps + j) = d + 1 by omega]
              simp
            · rw [if_neg hq2, if_neg (by omega)]
        · simp only [List.length_cons, Nat.add_right_cancel_iff]
          rw [show j + 1 + k = j + (k + 1) by omega]
      · intro hk
        rw [show j + (k + 1) = j + 1 + k by omega]
        exact k4 (by simpa using hk)

/-! ### the queue -/

open Verif.InsnQueue Verif.InsnQueue.Spec in
/-- One instruction of the queue. -/
theorem runFrom_cons {sys : Sys} {buf : Mem} {size left i p : Nat} {r : Req} {s : St}
    (hv : Req.Valid r) (h : At buf p r.encode) (hb : p + r.insnSize ≤ bufMax) :
    runFrom sys buf size (left + 1) i p s =
      runFrom sys buf size left (i + 1) (p + (exec sys i s r.insnSize (some (asked r))).2)
        (exec sys i s r.insnSize (some (asked r))).1 := by
  have e : step buf p none = .next (some (asked r)) r.insnSize := by
    rw [step_at hv h hb]
  rw [runFrom, e]

end Verif.SelfWrite
