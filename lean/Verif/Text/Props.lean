import Verif.Text.Model

/-! Properties C38, C39, C40, C41, C42 and C53. -/

namespace Verif.Text

/-! ### C38 -/

theorem printDec_ne_nil (n) : printDec n ≠ [] := by
  rw [printDec]; split <;> simp

theorem digit_ok (d : Nat) (h : d < 10) :
    isDigit (UInt8.ofNat (48 + d)) = true ∧ (UInt8.ofNat (48 + d)).toNat - 48 = d ∧ UInt8.ofNat (48 + d) ≠ 46 := by
  have hv : (UInt8.ofNat (48 + d)).toNat = 48 + d := by rw [UInt8.toNat_ofNat']; omega
  refine ⟨?_, by omega, ?_⟩
  · simp only [isDigit, Bool.and_eq_true, decide_eq_true_eq, UInt8.le_iff_toNat_le, hv]
    exact ⟨by show 48 ≤ _; omega, by show _ ≤ 57; omega⟩
  · intro hc
    have := congrArg UInt8.toNat hc
    rw [hv] at this
    have h46 : (46 : UInt8).toNat = 46 := rfl
    omega

theorem printDec_digits (n) : ∀ c ∈ printDec n, isDigit c = true ∧ c ≠ 46 := by
  induction n using Nat.strongRecOn with
  | ind n ih =>
    rw [printDec]
    split
    · intro c hc
      simp only [List.mem_singleton] at hc
      subst hc
      exact ⟨(digit_ok n (by omega)).1, (digit_ok n (by omega)).2.2⟩
    · intro c hc
      rcases List.mem_append.mp hc with hc | hc
      · exact ih (n / 10) (by omega) c hc
      · simp only [List.mem_singleton] at hc
        subst hc
        have := digit_ok (n % 10) (by omega)
        exact ⟨this.1, this.2.2⟩

theorem printDec_value (n) : (printDec n).foldl (fun a c => a * 10 + (c.toNat - 48)) 0 = n := by
  induction n using Nat.strongRecOn with
  | ind n ih =>
    rw [printDec]
    split
    · simp only [List.foldl_cons, List.foldl_nil, (digit_ok n (by omega)).2.1]; omega
    · rw [List.foldl_append, ih (n / 10) (by omega)]
      simp only [List.foldl_cons, List.foldl_nil, (digit_ok (n % 10) (by omega)).2.1]
      omega

theorem printDec_length {n k} (hk : 0 < k) (h : n < 10 ^ k) : (printDec n).length ≤ k := by
  induction k generalizing n with
  | zero => omega
  | succ k ih =>
    rw [printDec]
    split
    · simp
    · have : k ≠ 0 := by rintro rfl; omega
      have := ih (n := n / 10) (by omega) (by rw [Nat.pow_succ] at h; omega)
      simp only [List.length_append, List.length_singleton]
      omega

theorem atoi_printDec {n} (h : n < 2 ^ 31) : atoi (printDec n) = n := by
  unfold atoi
  rw [printDec_value]
  simp only
  rw [Nat.min_eq_left (by omega), Nat.mod_eq_of_lt (by omega), if_pos h]

theorem isnumber_printDec (n) : isnumber (some (printDec n)) = true := by
  have h1 := printDec_ne_nil n
  have h2 := printDec_digits n
  cases hp : printDec n with
  | nil => exact absurd hp h1
  | cons c s =>
    rw [hp] at h2
    simp only [isnumber, List.all_eq_true]
    exact fun c hc => (h2 c hc).1

theorem component_printDec {n} (h : n ≤ 0xFFFF) (s : Str) (hs : s = [] ∨ ∃ t, s = 46 :: t) :
    component (printDec n ++ s) = some (n, s.drop 1) := by
  have hdot : ∀ c ∈ printDec n, (c != 46) = true := fun c hc => by simpa using (printDec_digits n c hc).2
  have htok : strtok (printDec n ++ s) = (some (printDec n), s.drop 1) := by
    unfold strtok
    have h0 : (printDec n ++ s).dropWhile (fun c => c == 46) = printDec n ++ s := by
      cases hp : printDec n with
      | nil => exact absurd hp (printDec_ne_nil n)
      | cons c t =>
        have := hdot c (by rw [hp]; simp)
        rw [List.cons_append, List.dropWhile_cons, if_neg (by simpa using this)]
    simp only [h0]
    rw [if_neg (by simp [printDec_ne_nil])]
    rw [List.takeWhile_append_of_pos hdot, List.dropWhile_append_of_pos hdot]
    rcases hs with rfl | ⟨t, rfl⟩
    · simp
    · simp
  unfold component
  rw [htok]
  simp only [isnumber_printDec, Bool.not_true, Bool.false_eq_true, if_false, Option.getD_some]
  rw [atoi_printDec (by omega)]
  have : ((n : Int) % 2 ^ 64).toNat = n := by omega
  rw [this, if_neg (by omega)]

theorem triplet_eq {a b c : Nat} (ha : a < 2 ^ 16) (hb : b < 2 ^ 16) (hc : c < 2 ^ 16) :
    triplet a b c = c + b * 2 ^ 16 + a * 2 ^ 32 := by
  unfold triplet
  rw [Nat.shiftLeft_eq, Nat.shiftLeft_eq, Nat.mod_eq_of_lt (by omega)]

theorem versionAsString_eq (v : Nat) : versionAsString v =
    printDec (v / 2 ^ 32 % 2 ^ 16) ++ [46] ++ printDec (v / 2 ^ 16 % 2 ^ 16) ++ [46] ++ printDec (v % 2 ^ 16) := by
  unfold versionAsString
  have e1 : (v &&& 0x0000FFFF00000000) >>> 32 = v / 2 ^ 32 % 2 ^ 16 := by
    rw [Nat.shiftRight_and_distrib, Nat.shiftRight_eq_div_pow]
    exact Nat.and_two_pow_sub_one_eq_mod _ 16
  have e2 : (v &&& 0x00000000FFFF0000) >>> 16 = v / 2 ^ 16 % 2 ^ 16 := by
    rw [Nat.shiftRight_and_distrib, Nat.shiftRight_eq_div_pow]
    exact Nat.and_two_pow_sub_one_eq_mod _ 16
  have e3 : v &&& 0x000000000000FFFF = v % 2 ^ 16 := Nat.and_two_pow_sub_one_eq_mod _ 16
  simp only [e1, e2, e3, Nat.mod_mod]

/-- **C38** A version prints as its three components in decimal, separated by dots, and fits the
18-byte buffer with its terminator. -/
theorem C38_version_text {a b c : Nat} (ha : a < 2 ^ 16) (hb : b < 2 ^ 16) (hc : c < 2 ^ 16) :
    versionAsString (triplet a b c) = printDec a ++ [46] ++ printDec b ++ [46] ++ printDec c ∧
    (versionAsString (triplet a b c)).length < 18 := by
  have h : versionAsString (triplet a b c) = printDec a ++ [46] ++ printDec b ++ [46] ++ printDec c := by
    rw [versionAsString_eq, triplet_eq ha hb hc]
    congr 1
    · congr 1
      · congr 1
        · congr 1; congr 1; omega
        · congr 1; omega
    · congr 1; omega
  refine ⟨h, ?_⟩
  rw [h]
  have := printDec_length (n := a) (k := 5) (by omega) (by omega)
  have := printDec_length (n := b) (k := 5) (by omega) (by omega)
  have := printDec_length (n := c) (k := 5) (by omega) (by omega)
  simp only [List.length_append, List.length_singleton]
  omega

/-- **C38** Converting a version to text and back yields the same version. -/
theorem C38_version_round_trip {a b c : Nat} (ha : a < 2 ^ 16) (hb : b < 2 ^ 16) (hc : c < 2 ^ 16) :
    versionFromString (versionAsString (triplet a b c)) = triplet a b c := by
  rw [(C38_version_text ha hb hc).1]
  unfold versionFromString
  have h1 : printDec a ++ [46] ++ printDec b ++ [46] ++ printDec c =
      printDec a ++ (46 :: (printDec b ++ (46 :: (printDec c ++ [])))) := by simp
  rw [h1, component_printDec (by omega) _ (Or.inr ⟨_, rfl⟩)]
  simp only [List.drop_one, List.tail_cons]
  rw [component_printDec (by omega) _ (Or.inr ⟨_, rfl⟩)]
  simp only [List.drop_one, List.tail_cons]
  rw [component_printDec (by omega) _ (Or.inl rfl)]

/-- **C38** Comparing packed versions compares major, then minor, then patch number. -/
theorem C38_version_order {a b c a' b' c' : Nat} (ha : a < 2 ^ 16) (hb : b < 2 ^ 16) (hc : c < 2 ^ 16)
    (ha' : a' < 2 ^ 16) (hb' : b' < 2 ^ 16) (hc' : c' < 2 ^ 16) :
    triplet a b c < triplet a' b' c' ↔ a < a' ∨ (a = a' ∧ (b < b' ∨ (b = b' ∧ c < c'))) := by
  rw [triplet_eq ha hb hc, triplet_eq ha' hb' hc']
  omega

/-- "0.3.65535" -/
example : versionAsString (triplet 0 3 65535) = [48, 46, 51, 46, 54, 53, 53, 51, 53] ∧
    versionFromString [48, 46, 51, 46, 54, 53, 53, 51, 53] = triplet 0 3 65535 ∧
    triplet 0 3 65535 < triplet 0 4 0 := by
  refine ⟨?_, ?_, ?_⟩
  · rw [(C38_version_text (by decide) (by decide) (by decide)).1]
    simp [printDec]
  · decide +kernel
  · rw [C38_version_order] <;> simp

/-! ### C39 and C53 -/

theorem hexVal_hexDigit (n : Nat) (h : n < 16) : hexVal (hexDigit n) = some n := by
  have : ∀ n : Fin 16, hexVal (hexDigit n.1) = some n.1 := by decide
  exact this ⟨n, h⟩

theorem hexDigit_plain (n : Nat) (h : n < 16) : isSpace (hexDigit n) = false ∧ hexDigit n ≠ 43 ∧ hexDigit n ≠ 45 ∧
    hexDigit n ≠ 120 ∧ hexDigit n ≠ 88 := by
  have : ∀ n : Fin 16, isSpace (hexDigit n.1) = false ∧ hexDigit n.1 ≠ 43 ∧ hexDigit n.1 ≠ 45 ∧
    hexDigit n.1 ≠ 120 ∧ hexDigit n.1 ≠ 88 := by decide
  exact this ⟨n, h⟩

/-- A hexadecimal digit is neither space, sign nor `x`. -/
theorem hexVal_plain {c : UInt8} {v} (h : hexVal c = some v) : isSpace c = false ∧ c ≠ 43 ∧ c ≠ 45 ∧
    c ≠ 120 ∧ c ≠ 88 := by
  have : ∀ k : Fin 256, (hexVal (UInt8.ofNat k.1)).isSome = true → isSpace (UInt8.ofNat k.1) = false ∧
      UInt8.ofNat k.1 ≠ 43 ∧ UInt8.ofNat k.1 ≠ 45 ∧ UInt8.ofNat k.1 ≠ 120 ∧ UInt8.ofNat k.1 ≠ 88 := by decide +kernel
  have hk := this ⟨c.toNat, c.toNat_lt⟩
  simp only [UInt8.ofNat_toNat] at hk
  exact hk (by rw [h]; rfl)

/-- Two hexadecimal digits scan to their value. -/
theorem scanHex2_two {c d : UInt8} {v w} (hc : hexVal c = some v) (hd : hexVal d = some w) (s : Str) :
    scanHex2 (c :: d :: s) = some (v * 16 + w) := by
  obtain ⟨c1, c2, c3, -, -⟩ := hexVal_plain hc
  obtain ⟨-, -, -, d1, d2⟩ := hexVal_plain hd
  unfold scanHex2
  rw [List.dropWhile_cons, if_neg (by simp [c1])]
  split
  · rename_i h; injection h with h1 h2; exact absurd h1 c2
  · rename_i h; injection h with h1 h2; exact absurd h1 c3
  · rename_i h; injection h with h1 h2; injection h2 with h2 h3; exact absurd h2 d1
  · rename_i h; injection h with h1 h2; injection h2 with h2 h3; exact absurd h2 d2
  · simp [hexNum, hexRun, hc, hd]

theorem buildidToString_length (id : List UInt8) : (buildidToString id).length = 2 * id.length := by
  induction id with
  | nil => rfl
  | cons b id ih =>
    have : buildidToString (b :: id) = printHex b ++ buildidToString id := rfl
    rw [this, List.length_append, ih]
    simp [printHex]
    omega

theorem buildidToString_drop (id : List UInt8) (i : Nat) :
    (buildidToString id).drop (2 * i) = buildidToString (id.drop i) := by
  induction i generalizing id with
  | zero => rfl
  | succ i ih =>
    cases id with
    | nil => simp [buildidToString]
    | cons b id =>
      have : buildidToString (b :: id) = printHex b ++ buildidToString id := rfl
      rw [this, List.drop_succ_cons, ← ih]
      show List.drop (2 * i + 2) (_ :: _ :: buildidToString id) = _
      rfl

theorem scanHex2_printHex (b : UInt8) (s : Str) : scanHex2 (printHex b ++ s) = some b.toNat := by
  have hb := b.toNat_lt
  rw [printHex, List.cons_append, List.cons_append, List.nil_append,
    scanHex2_two (hexVal_hexDigit _ (by omega)) (hexVal_hexDigit _ (by omega))]
  congr 1
  omega

theorem parseLoop_print (id : List UInt8) (n i : Nat) (h : i + n = id.length) (acc) :
    parseLoop (buildidToString id) n i acc = .ok (acc ++ id.drop i) := by
  induction n generalizing i acc with
  | zero =>
    rw [parseLoop, List.drop_of_length_le (by omega), List.append_nil]
  | succ n ih =>
    rw [parseLoop, if_neg (by rw [buildidToString_length]; omega), buildidToString_drop]
    have hi : i < id.length := by omega
    rw [List.drop_eq_getElem_cons hi]
    have : buildidToString (id[i] :: id.drop (i + 1)) = printHex id[i] ++ buildidToString (id.drop (i + 1)) := rfl
    rw [this, scanHex2_printHex]
    simp only [UInt8.ofNat_toNat]
    rw [ih (i + 1) (by omega)]
    simp

/-- **C39** Parsing the printed form of a build id gives the build id back. -/
theorem C39_buildid_round_trip (id : List UInt8) (h : id.length = 20) :
    strToBuildid (buildidToString id) = .ok id := by
  unfold strToBuildid
  rw [if_neg (by rw [buildidToString_length, h]; decide),
    parseLoop_print id buildIdLen 0 (by rw [h]; rfl)]
  rfl

/-- **C39** Different build ids print differently. -/
theorem C39_buildid_print_injective (a b : List UInt8) (ha : a.length = 20) (hb : b.length = 20)
    (h : buildidToString a = buildidToString b) : a = b := by
  have h1 := C39_buildid_round_trip a ha
  rw [h, C39_buildid_round_trip b hb] at h1
  injection h1 with h1
  exact h1.symm

/-- **C39** The printed form has 40 characters, which with the terminator fills the 41-byte buffer. -/
theorem C39_buildid_fits (id : List UInt8) (h : id.length = 20) : (buildidToString id).length = 40 := by
  rw [buildidToString_length, h]

example : ∃ id : List UInt8, id.length = 20 ∧ buildidToString id ≠ [] ∧
    (buildidToString id).take 4 = [48, 97, 102, 102] :=
  ⟨10 :: 255 :: List.replicate 18 7, by simp, by simp [buildidToString, printHex], by decide +kernel⟩

/-- **C53**, the part that is true: a text of at least 40 hexadecimal digits is parsed, without
reading outside of it, into bytes that print as the first 40 digits in lower case; texts shorter than
20 characters are refused.  Missing: texts of 20 to 39 characters
(`C53_short_buildid_reads_outside`) and texts with other characters (`C53_garbage_uninitialized`). -/
theorem C53_buildid_text_partial (str : Str) (hx : ∀ c ∈ str, ∃ v, hexVal c = some v) :
    (str.length < 20 → strToBuildid str = .einval) ∧
    (40 ≤ str.length → ∃ id, strToBuildid str = .ok id ∧ id.length = 20 ∧
      ∀ i, i < 20 → ∃ v w, hexVal (str.getD (2 * i) 0) = some v ∧ hexVal (str.getD (2 * i + 1) 0) = some w ∧
        (id.getD i 0).toNat = v * 16 + w) := by
  constructor
  · intro h
    unfold strToBuildid
    rw [if_pos (by exact h)]
  · intro h
    have hval : ∀ {c v}, hexVal c = some v → v < 16 := by
      intro c v hc
      have : ∀ k : Fin 256, ∀ v, hexVal (UInt8.ofNat k.1) = some v → v < 16 := by
        intro k
        cases hk : hexVal (UInt8.ofNat k.1) with
        | none => simp
        | some v =>
          intro v' hv
          injection hv with hv
          subst hv
          have : ∀ k : Fin 256, ((hexVal (UInt8.ofNat k.1)).getD 0) < 16 := by decide +kernel
          have := this k
          rw [hk] at this
          exact this
      have := this ⟨c.toNat, c.toNat_lt⟩ v
      simp only [UInt8.ofNat_toNat] at this
      exact this hc
    have key : ∀ n i acc, i + n = 20 → acc.length = i →
        (∀ j, j < i → ∃ v w, hexVal (str.getD (2 * j) 0) = some v ∧ hexVal (str.getD (2 * j + 1) 0) = some w ∧
          (acc.getD j 0).toNat = v * 16 + w) →
        ∃ id, parseLoop str n i acc = .ok id ∧ id.length = 20 ∧
          ∀ j, j < 20 → ∃ v w, hexVal (str.getD (2 * j) 0) = some v ∧ hexVal (str.getD (2 * j + 1) 0) = some w ∧
            (id.getD j 0).toNat = v * 16 + w := by
      intro n
      induction n with
      | zero =>
        intro i acc hi hl hacc
        have : i = 20 := by omega
        subst this
        exact ⟨acc, rfl, hl, hacc⟩
      | succ n ih =>
        intro i acc hi hl hacc
        rw [parseLoop, if_neg (by omega)]
        have h1 : 2 * i < str.length := by omega
        have h2 : 2 * i + 1 < str.length := by omega
        rw [List.drop_eq_getElem_cons h1, List.drop_eq_getElem_cons h2]
        obtain ⟨v, hv⟩ := hx str[2 * i] (List.getElem_mem h1)
        obtain ⟨w, hw⟩ := hx str[2 * i + 1] (List.getElem_mem h2)
        rw [scanHex2_two hv hw]
        simp only
        refine ih (i + 1) _ (by omega) (by simp [hl]) ?_
        intro j hj
        by_cases hji : j < i
        · obtain ⟨v', w', a1, a2, a3⟩ := hacc j hji
          refine ⟨v', w', a1, a2, ?_⟩
          rw [← a3, List.getD_eq_getElem?_getD, List.getD_eq_getElem?_getD, List.getElem?_append_left (by omega)]
        · have : j = i := by omega
          subst this
          refine ⟨v, w, ?_, ?_, ?_⟩
          · rw [List.getD_eq_getElem?_getD, List.getElem?_eq_getElem h1]; exact hv
          · rw [List.getD_eq_getElem?_getD, List.getElem?_eq_getElem h2]; exact hw
          · rw [List.getD_eq_getElem?_getD, List.getElem?_append_right (by omega), hl]
            have hv' := hval hv
            have hw' := hval hw
            simp only [Nat.sub_self, List.getElem?_cons_zero, Option.getD_some, UInt8.toNat_ofNat']
            omega
    unfold strToBuildid
    rw [if_neg (by simp [buildIdLen]; omega)]
    exact key buildIdLen 0 [] (by rfl) rfl (by simp)

theorem scanHex2_one {c : UInt8} {v} (hc : hexVal c = some v) : scanHex2 [c] = some v := by
  obtain ⟨c1, c2, c3, -, -⟩ := hexVal_plain hc
  unfold scanHex2
  rw [List.dropWhile_cons, if_neg (by simp [c1])]
  split
  · rename_i h; injection h with h1 h2; exact absurd h1 c2
  · rename_i h; injection h with h1 h2; exact absurd h1 c3
  · rename_i h; injection h with h1 h2; exact absurd h2 (by simp)
  · rename_i h; injection h with h1 h2; exact absurd h2 (by simp)
  · simp [hexNum, hexRun, hc]

/-- Negation of **C53**: no hexadecimal text of 20 to 38 digits is refused, although it is too short:
the parser reads beyond the terminator (odd lengths), or uses a value it never read (even lengths). -/
theorem C53_short_buildid_undefined (str : Str) (hx : ∀ c ∈ str, ∃ v, hexVal c = some v)
    (h1 : 20 ≤ str.length) (h2 : str.length ≤ 38) :
    strToBuildid str = if str.length % 2 = 1 then .outOfBounds else .uninitialized := by
  have key : ∀ n i acc, i + n = 20 → 2 * i ≤ str.length + 1 → parseLoop str n i acc =
      if str.length % 2 = 1 then .outOfBounds else .uninitialized := by
    intro n
    induction n with
    | zero => intro i acc hi hik; omega
    | succ n ih =>
      intro i acc hi hik
      rw [parseLoop]
      by_cases hA : str.length < 2 * i
      · rw [if_pos hA, if_pos (by omega)]
      rw [if_neg hA]
      by_cases hB : 2 * i = str.length
      · rw [if_neg (by omega), hB, List.drop_length]
        rfl
      have h1 : 2 * i < str.length := by omega
      obtain ⟨v, hv⟩ := hx str[2 * i] (List.getElem_mem h1)
      rw [List.drop_eq_getElem_cons h1]
      by_cases hC : 2 * i + 1 = str.length
      · rw [hC, List.drop_length, scanHex2_one hv]
        exact ih (i + 1) _ (by omega) (by omega)
      · have h2 : 2 * i + 1 < str.length := by omega
        rw [List.drop_eq_getElem_cons h2]
        obtain ⟨w, hw⟩ := hx str[2 * i + 1] (List.getElem_mem h2)
        rw [scanHex2_two hv hw]
        exact ih (i + 1) _ (by omega) (by omega)
  unfold strToBuildid
  rw [if_neg (by simp [buildIdLen]; omega)]
  exact key _ _ _ rfl (by omega)

/-- Twenty-one `f`s; and sixty of them. -/
example : strToBuildid (List.replicate 21 102) = .outOfBounds ∧
    ∃ id, strToBuildid (List.replicate 60 102) = .ok id := by
  have hx : ∀ n, ∀ c ∈ List.replicate n (102 : UInt8), ∃ v, hexVal c = some v := by
    intro n c hc
    rw [(List.mem_replicate.mp hc).2]
    exact ⟨15, rfl⟩
  refine ⟨by rw [C53_short_buildid_undefined _ (hx 21) (by simp) (by simp)]; rfl, ?_⟩
  obtain ⟨id, h, -⟩ := (C53_buildid_text_partial _ (hx 60)).2 (by simp)
  exact ⟨id, h⟩

/-- Negation of **C53**: a text that is not hexadecimal is not refused either. -/
theorem C53_garbage_uninitialized (c : UInt8) (h : hexVal c = none) (hs : isSpace c = false) (h1 : c ≠ 43) (h2 : c ≠ 45)
    (rest : Str) (hl : 19 ≤ rest.length) : strToBuildid (c :: rest) = .uninitialized := by
  have h48 : c ≠ 48 := by rintro rfl; simp [hexVal] at h
  unfold strToBuildid
  rw [if_neg (by simp [buildIdLen]; omega)]
  rw [buildIdLen, parseLoop, if_neg (by omega), Nat.mul_zero, List.drop_zero]
  have : scanHex2 (c :: rest) = none := by
    unfold scanHex2
    rw [List.dropWhile_cons, if_neg (by simp [hs])]
    split
    · rename_i h; injection h with h1' h2'; exact absurd h1' h1
    · rename_i h; injection h with h1' h2'; exact absurd h1' h2
    · rename_i h; injection h with h1' h2'; exact absurd h1' h48
    · rename_i h; injection h with h1' h2'; exact absurd h1' h48
    · simp [hexNum, hexRun, h]
  rw [this]

/-- "zzzz..." -/
example : strToBuildid (122 :: List.replicate 39 122) = .uninitialized :=
  C53_garbage_uninitialized 122 (by decide) (by decide) (by decide) (by decide) _ (by simp)

/-! ### C40 -/

theorem strrchr_some {c : UInt8} {s : Str} {i} (h : strrchr c s = some i) :
    i < s.length ∧ s[i]? = some c ∧ c ∉ s.drop (i + 1) := by
  induction s generalizing i with
  | nil => simp [strrchr] at h
  | cons b bs ih =>
    rw [strrchr] at h
    cases hr : strrchr c bs with
    | some j =>
      simp only [hr, Option.some.injEq] at h
      subst h
      obtain ⟨h1, h2, h3⟩ := ih hr
      exact ⟨by simp only [List.length_cons]; omega, by simpa using h2, by simpa using h3⟩
    | none =>
      simp only [hr] at h
      split at h
      · rename_i hb
        injection h with h
        subst h
        refine ⟨by simp, by simp [hb], ?_⟩
        have : ∀ t : Str, strrchr c t = none → c ∉ t := by
          intro t
          induction t with
          | nil => simp
          | cons x t iht =>
            intro ht
            rw [strrchr] at ht
            cases hq : strrchr c t with
            | some k => simp [hq] at ht
            | none =>
              simp only [hq] at ht
              split at ht
              · simp at ht
              · rename_i hx
                simp only [List.mem_cons, not_or]
                exact ⟨fun hc => hx hc.symm, iht hq⟩
        simpa using this bs hr
      · simp at h

theorem strrchr_none {c : UInt8} {s : Str} (h : strrchr c s = none) : c ∉ s := by
  induction s with
  | nil => simp
  | cons b bs ih =>
    rw [strrchr] at h
    cases hr : strrchr c bs with
    | some j => simp [hr] at h
    | none =>
      simp only [hr] at h
      split at h
      · simp at h
      · rename_i hb
        simp only [List.mem_cons, not_or]
        exact ⟨fun hc => hb hc.symm, ih hr⟩

/-- **C40** The basename contains no slash, and what comes before it is empty or ends with a slash. -/
theorem C40_basename (s : Str) : ∃ dir, s = dir ++ getBasename s ∧ (47 : UInt8) ∉ getBasename s ∧
    (dir = [] ∨ ∃ d, dir = d ++ [47]) := by
  unfold getBasename basenameOff
  cases h : strrchr 47 s with
  | none => exact ⟨[], by simp, by simpa using strrchr_none h, Or.inl rfl⟩
  | some i =>
    obtain ⟨h1, h2, h3⟩ := strrchr_some h
    refine ⟨s.take (i + 1), by simp, h3, Or.inr ⟨s.take i, ?_⟩⟩
    rw [List.take_add_one, h2]
    rfl

/-- **C40** Those conditions determine the basename. -/
theorem C40_basename_unique (dir base : Str) (hb : (47 : UInt8) ∉ base) (hd : dir = [] ∨ ∃ d, dir = d ++ [47]) :
    getBasename (dir ++ base) = base := by
  obtain ⟨dir', h1, h2, h3⟩ := C40_basename (dir ++ base)
  have aux : ∀ {x y a b : Str}, x ++ a = y ++ b → (47 : UInt8) ∉ a → (y = [] ∨ ∃ d, y = d ++ [47]) → y.length ≤ x.length := by
    intro x y a b h ha hy
    rcases hy with rfl | ⟨d, rfl⟩
    · simp
    · refine Decidable.byContradiction fun hc => ha ?_
      simp only [List.length_append, List.length_singleton, Nat.not_le] at hc
      have hl := congrArg List.length h
      simp only [List.length_append, List.length_singleton] at hl
      have hg : (x ++ a)[d.length]? = (d ++ [47] ++ b)[d.length]? := by rw [h]
      rw [List.getElem?_append_right (by omega), List.getElem?_append_left (by simp),
        List.getElem?_append_right (by omega)] at hg
      simp only [Nat.sub_self, List.getElem?_cons_zero] at hg
      exact List.mem_of_getElem? hg
  have e1 := aux h1 hb h3
  have e2 := aux h1.symm h2 hd
  exact (List.append_inj h1 (by omega)).2.symm

/-- "/usr/lib64/libc.so" and "libc.so" -/
example : getBasename ([47, 117, 115, 114, 47, 108, 105, 98, 54, 52, 47] ++ [108, 105, 98, 99, 46, 115, 111]) =
      [108, 105, 98, 99, 46, 115, 111] ∧
    getBasename ([] ++ [108, 105, 98, 99, 46, 115, 111]) = [108, 105, 98, 99, 46, 115, 111] :=
  ⟨C40_basename_unique _ _ (by decide) (Or.inr ⟨[47, 117, 115, 114, 47, 108, 105, 98, 54, 52], rfl⟩),
   C40_basename_unique _ _ (by decide) (Or.inl rfl)⟩

/-! ### C41 -/

/-- **C41**, the part that is true: whatever the C library says about other numbers, the codes from
EUNKNOWN to EDLOPEN have pairwise different messages, the ones written at their position in
include/error_common.h:78-110.  Missing: ENOLIBDL and ENOLIBC, for which the claim is false
(`C41_last_messages_wrong`). -/
theorem C41_own_message_partial (sys : Err → String) (e e' : Nat) (h1 : EUNKNOWN ≤ e) (h2 : e ≤ EDLOPEN)
    (h1' : EUNKNOWN ≤ e') (h2' : e' ≤ EDLOPEN) :
    errlist[e - EUNKNOWN]? = some (strerror sys e) ∧ (strerror sys e = strerror sys e' → e = e') := by
  have key : ∀ e : Nat, EUNKNOWN ≤ e → e ≤ EDLOPEN → errlist[e - EUNKNOWN]? = some (strerror sys e) := by
    intro e h1 h2
    have h1 : 256 ≤ e := h1
    have h2 : e ≤ 287 := h2
    have hl : errlist.length = 33 := rfl
    unfold strerror
    rw [if_pos ⟨by show 255 < e; omega, by rw [hl]; show e < 256 + 33; omega⟩]
    have : e &&& 0xFF = e - EUNKNOWN := by
      rw [show (0xFF : Nat) = 2 ^ 8 - 1 from rfl, Nat.and_two_pow_sub_one_eq_mod]
      show e % 2 ^ 8 = e - 256
      omega
    rw [this, List.getElem?_eq_getElem (by rw [hl]; show e - 256 < 33; omega)]
    rfl
  refine ⟨key e h1 h2, fun h => ?_⟩
  have k1 := key e h1 h2
  have k2 := key e' h1' h2'
  rw [h, ← k2] at k1
  have hnd : errlist.Nodup := by decide +kernel
  have hl : errlist.length = 33 := rfl
  have h1 : 256 ≤ e := h1
  have h2 : e ≤ 287 := h2
  have h1' : 256 ≤ e' := h1'
  have h2' : e' ≤ 287 := h2'
  simp only [EUNKNOWN] at k1
  have := (List.getElem_inj (i := e - 256) (j := e' - 256) (h₀ := by omega) (h₁ := by omega) hnd).mp (by
    rw [List.getElem?_eq_getElem (by omega), List.getElem?_eq_getElem (by omega)] at k1
    injection k1)
  omega

/-- Negation of **C41**: "Libdl not found." is reported together with "Libc not found or unsupported.",
and ENOLIBC has no message of libpulp's at all: it is passed to the C library's `strerror`. -/
theorem C41_last_messages_wrong (sys : Err → String) :
    strerror sys ENOLIBDL = "Libdl not found.Libc not found or unsupported." ∧
    strerror sys ENOLIBC = sys ENOLIBC :=
  ⟨rfl, rfl⟩

example (sys : Err → String) : strerror sys EDEPEND = "Dependency failure" ∧ strerror sys EAGAIN = sys 11 := ⟨rfl, rfl⟩

/-! ### C42 -/

/-- A candidate is the prefix followed by the whole number, and fits the 24-byte buffer. -/
theorem candidate_eq (t : UInt32) : candidate t = tmpPrefix ++ printDec t.toNat := by
  unfold candidate
  apply List.take_of_length_le
  have := printDec_length (n := t.toNat) (k := 10) (by omega) (by have := t.toNat_lt; omega)
  simp only [List.length_append]
  have : tmpPrefix.length = 9 := rfl
  omega

/-- **C42**, the part that is true: if the first candidate does not exist and can be created, it is
returned at once.  Missing: any later candidate (`C42_conflict_never_ends`). -/
theorem C42_unused_first_candidate_partial (fs : Files) (rand : Nat → Option UInt32) (t : UInt32) (h : rand 0 = some t)
    (hne : fs.exist (tmpPrefix ++ printDec t.toNat) = false) (hw : fs.writable (tmpPrefix ++ printDec t.toNat) = true)
    (fuel : Nat) : createTmp fs rand (fuel + 1) = some (.path (tmpPrefix ++ printDec t.toNat)) := by
  unfold createTmp tmpLoop
  rw [← candidate_eq] at hne hw ⊢
  have hr : fs.readable (candidate t) = false := by
    cases hr : fs.readable (candidate t) with
    | false => rfl
    | true => rw [fs.readable_exist _ hr] at hne; simp at hne
  simp [h, hr, hw]

/-- **C42**, safety: if every existing candidate can be read, a name that is returned does not exist. -/
theorem C42_returned_name_unused_partial (fs : Files) (rand : Nat → Option UInt32)
    (hread : ∀ n, fs.exist n = true → fs.readable n = true) (fuel : Nat) (n : Str)
    (h : createTmp fs rand fuel = some (.path n)) : fs.exist n = false := by
  have key : ∀ fuel c i, tmpLoop fs rand c fuel i = some (.path n) → fs.exist n = false := by
    intro fuel
    induction fuel with
    | zero => intro c i h; simp [tmpLoop] at h
    | succ fuel ih =>
      intro c i h
      rw [tmpLoop] at h
      cases hi : rand i with
      | none => simp [hi] at h
      | some t =>
        simp only [hi] at h
        by_cases hc : (if fs.readable (candidate t) = true then true else c) = true
        · rw [if_pos hc] at h
          exact ih _ _ h
        · rw [if_neg hc] at h
          by_cases hw : fs.writable (candidate t) = true
          · rw [if_pos hw] at h
            injection h with h
            injection h with h
            subst h
            cases he : fs.exist (candidate t) with
            | false => rfl
            | true => simp [hread _ he] at hc
          · rw [if_neg hw] at h
            simp at h
  exact key fuel false 0 h

/-- Negation of **C42**: if the first candidate is taken, the function never returns, however many of
the following candidates are unused (`conflict` is never reset). -/
theorem C42_conflict_never_ends (fs : Files) (rand : Nat → Option UInt32) (hr : ∀ i, rand i ≠ none) (t : UInt32)
    (h : rand 0 = some t) (hex : fs.readable (tmpPrefix ++ printDec t.toNat) = true) (fuel : Nat) :
    createTmp fs rand fuel = none := by
  have key : ∀ fuel i, tmpLoop fs rand true fuel i = none := by
    intro fuel
    induction fuel with
    | zero => intro i; rfl
    | succ fuel ih =>
      intro i
      rw [tmpLoop]
      cases hi : rand i with
      | none => exact absurd hi (hr i)
      | some t => simp [ih]
  unfold createTmp
  cases fuel with
  | zero => rfl
  | succ fuel =>
    rw [tmpLoop, h]
    rw [← candidate_eq] at hex
    simp [hex, key]

/-- Negation of **C42**: an existing file that may be written but not read is taken to be unused. -/
theorem C42_unreadable_file_reused (fs : Files) (rand : Nat → Option UInt32) (t : UInt32) (h : rand 0 = some t)
    (hr : fs.readable (tmpPrefix ++ printDec t.toNat) = false)
    (hw : fs.writable (tmpPrefix ++ printDec t.toNat) = true)
    (fuel : Nat) : createTmp fs rand (fuel + 1) = some (.path (tmpPrefix ++ printDec t.toNat)) := by
  unfold createTmp tmpLoop
  rw [← candidate_eq] at hr hw ⊢
  simp [h, hr, hw]

/-- Only /tmp/ulp-7 exists. -/
def demoFiles (readable : Bool) : Files where
  exist n := n == tmpPrefix ++ [55]
  readable n := readable && n == tmpPrefix ++ [55]
  writable _ := true
  readable_exist := by simp

example : createTmp (demoFiles true) (fun i => some (UInt32.ofNat (7 + i))) 1000 = none ∧
    createTmp (demoFiles true) (fun i => some (UInt32.ofNat (8 + i))) 1 = some (.path (tmpPrefix ++ [56])) ∧
    createTmp (demoFiles false) (fun i => some (UInt32.ofNat (7 + i))) 1 = some (.path (tmpPrefix ++ [55])) ∧
    (demoFiles false).exist (tmpPrefix ++ [55]) = true := by
  have h7 : printDec 7 = [55] := by simp [printDec]
  have h8 : printDec 8 = [56] := by simp [printDec]
  refine ⟨C42_conflict_never_ends _ _ (by simp) 7 rfl (by
    show (true && (tmpPrefix ++ printDec 7 == tmpPrefix ++ [55])) = true
    rw [h7]; rfl) _, ?_, ?_, rfl⟩
  · have := C42_unused_first_candidate_partial (demoFiles true) (fun i => some (UInt32.ofNat (8 + i))) 8 rfl
      (by show (tmpPrefix ++ printDec 8 == _) = _; rw [h8]; rfl) rfl 0
    rw [show (8 : UInt32).toNat = 8 from rfl, h8] at this
    exact this
  · have := C42_unreadable_file_reused (demoFiles false) (fun i => some (UInt32.ofNat (7 + i))) 7 rfl rfl rfl 0
    rw [show (7 : UInt32).toNat = 7 from rfl, h7] at this
    exact this

/-! ### Further concrete cases -/

example := C38_version_round_trip (a := 0) (b := 3) (c := 65535) (by decide) (by decide) (by decide)
example := C39_buildid_round_trip (10 :: 255 :: List.replicate 18 7) (by decide)
example := C39_buildid_print_injective (10 :: 255 :: List.replicate 18 7) (10 :: 255 :: List.replicate 18 7) (by decide) (by decide) rfl
example := C39_buildid_fits (10 :: 255 :: List.replicate 18 7) (by decide)
example := C40_basename [47, 117, 115, 114, 47, 108, 105, 98]
example (sys : Err → String) := C41_own_message_partial sys EDEPEND EBUILDID (by decide) (by decide) (by decide) (by decide)
example := C41_last_messages_wrong fun e => s!"Error {e}"
example := C42_returned_name_unused_partial (demoFiles true) (fun i => some (UInt32.ofNat (8 + i)))
  (by intro n h; simpa [demoFiles] using h) 1

end Verif.Text
