import Verif.Ptrace.Model

/-! Properties C09, C10, C11, C12. -/

namespace Verif.Ptrace

/-! ### C09 -/

theorem store_remainder (m : Mem) (a : Nat) (buf : List UInt8) (h : buf.length ≤ 8) :
    m.store a (buf ++ (m.load a 8).drop buf.length) = m.store a buf := by
  rw [store_append]
  have : (m.load a 8).drop buf.length = (m.store a buf).load (a + buf.length) (8 - buf.length) := by
    rw [load_store_out (Or.inr (Nat.le_refl _))]
    have h8 : m.load a 8 = m.load a buf.length ++ m.load (a + buf.length) (8 - buf.length) := by
      rw [← load_append]; congr 1; omega
    rw [h8, List.drop_left' (by simp)]
  rw [this, store_load]

theorem writeLoop_ok (fail : Nat → Option Nat) (longs op a : Nat) (buf : List UInt8) (m : Mem)
    (h1 : 8 * longs ≤ buf.length) (h2 : buf.length < 8 * longs + 8) :
    ((writeLoop fail longs op a buf m).2 = 0 → (writeLoop fail longs op a buf m).1 = m.store a buf) ∧
    ((writeLoop fail longs op a buf m).2 ≠ 0 → (writeLoop fail longs op a buf m).2 = 1 ∧
      ∃ k, k ≤ buf.length ∧ (writeLoop fail longs op a buf m).1 = m.store a (buf.take k)) := by
  induction longs generalizing op a buf m with
  | zero =>
    rw [writeLoop]
    split
    · cases hf : fail op with
      | some j => exact ⟨by simp, fun _ => ⟨rfl, 0, by omega, by simp [store_nil]⟩⟩
      | none =>
        simp only
        cases hg : fail (op + 1) with
        | none =>
          simp only [poke]
          exact ⟨fun _ => store_remainder m a buf (by omega), by simp⟩
        | some j =>
          simp only [poke]
          refine ⟨by simp, fun _ => ⟨by simp, min j buf.length, by omega, ?_⟩⟩
          by_cases hj : j ≤ buf.length
          · rw [List.take_append_of_le_length hj, Nat.min_eq_left hj]
          · rw [Nat.min_eq_right (by omega), List.take_length, List.take_append, List.take_of_length_le (by omega)]
            have : (m.load a 8).drop buf.length = (m.store a buf).load (a + buf.length) (8 - buf.length) := by
              rw [load_store_out (Or.inr (Nat.le_refl _))]
              have h8 : m.load a 8 = m.load a buf.length ++ m.load (a + buf.length) (8 - buf.length) := by
                rw [← load_append]; congr 1; omega
              rw [h8, List.drop_left' (by simp)]
            have ht : ((m.store a buf).load (a + buf.length) (8 - buf.length)).take (j - buf.length) =
                (m.store a buf).load (a + buf.length) (min (j - buf.length) (8 - buf.length)) := by
              have : 8 - buf.length = min (j - buf.length) (8 - buf.length) +
                  (8 - buf.length - min (j - buf.length) (8 - buf.length)) := by omega
              conv => lhs; rw [this, load_append]
              rw [List.take_append]
              by_cases hc : j - buf.length ≤ 8 - buf.length
              · rw [Nat.min_eq_left hc, List.take_of_length_le (by simp)]
                simp
              · rw [Nat.min_eq_right (by omega), List.take_of_length_le (by simp; omega)]
                simp [Mem.load]
            rw [store_append, this, ht, store_load]
    · rename_i hb
      have : buf = [] := List.length_eq_zero_iff.mp (by omega)
      subst this
      exact ⟨fun _ => (store_nil m a).symm, by simp⟩
  | succ longs ih =>
    rw [writeLoop]
    cases hf : fail op with
    | some j =>
      simp only [poke]
      refine ⟨by simp, fun _ => ⟨by simp, min j 8, by omega, ?_⟩⟩
      rw [List.take_take]
    | none =>
      simp only [poke]
      obtain ⟨i1, i2⟩ := ih (op + 1) (a + 8) (buf.drop 8) (m.store a (buf.take 8)) (by simp; omega) (by simp; omega)
      have hlen : (buf.take 8).length = 8 := by simp; omega
      have hst : ∀ x, (m.store a (buf.take 8)).store (a + 8) x = m.store a (buf.take 8 ++ x) := by
        intro x; rw [store_append, hlen]
      refine ⟨fun h => ?_, fun h => ?_⟩
      · rw [i1 h, hst, List.take_append_drop]
      · obtain ⟨h1', k, hk, hm⟩ := i2 h
        refine ⟨h1', 8 + k, by simp at hk; omega, ?_⟩
        rw [hm, hst, List.take_add]

/-- **C09** Whatever requests fail: if 0 is returned, exactly the given bytes were written at the given
address (and nothing else); otherwise 1 is returned and exactly a prefix of them was written. -/
theorem C09_write_exact (fail : Nat → Option Nat) (buf : List UInt8) (addr : Nat) (m : Mem) :
    ((writeBytesPtrace fail buf addr m).2 = 0 → (writeBytesPtrace fail buf addr m).1 = m.store addr buf) ∧
    ((writeBytesPtrace fail buf addr m).2 ≠ 0 → (writeBytesPtrace fail buf addr m).2 = 1 ∧
      ∃ k, k ≤ buf.length ∧ (writeBytesPtrace fail buf addr m).1 = m.store addr (buf.take k)) :=
  writeLoop_ok fail _ 0 addr buf m (by omega) (by omega)

/-- **C09** In terms of single bytes: every byte outside of the range keeps its value in any case, and
on success every byte inside has the requested value. -/
theorem C09_write_bytes (fail : Nat → Option Nat) (buf : List UInt8) (addr : Nat) (m : Mem) (i : Nat) :
    (i < addr ∨ addr + buf.length ≤ i → (writeBytesPtrace fail buf addr m).1 i = m i) ∧
    ((writeBytesPtrace fail buf addr m).2 = 0 → ∀ h : i < buf.length,
      (writeBytesPtrace fail buf addr m).1 (addr + i) = buf[i]) := by
  obtain ⟨h1, h2⟩ := C09_write_exact fail buf addr m
  constructor
  · intro hi
    by_cases h0 : (writeBytesPtrace fail buf addr m).2 = 0
    · rw [h1 h0, store_out hi]
    · obtain ⟨-, k, hk, hm⟩ := h2 h0
      rw [hm, store_out (by simp; omega)]
  · intro h0 h
    rw [h1 h0, store_in h]

theorem writeLoop_reports (fail : Nat → Option Nat) (longs op a : Nat) (buf : List UInt8) (m : Mem)
    (h1 : 8 * longs ≤ buf.length) (h2 : buf.length < 8 * longs + 8) :
    (writeLoop fail longs op a buf m).2 = 0 ↔
      ∀ i, i < longs + (if 8 * longs < buf.length then 2 else 0) → fail (op + i) = none := by
  induction longs generalizing op a buf m with
  | zero =>
    rw [writeLoop]
    by_cases hb : 0 < buf.length
    · rw [if_pos hb, if_pos (by omega)]
      cases hf : fail op with
      | some j =>
        simp only
        refine ⟨by simp, fun h => ?_⟩
        have := h 0 (by omega)
        rw [Nat.add_zero, hf] at this
        simp at this
      | none =>
        cases hg : fail (op + 1) with
        | some j =>
          simp only [poke]
          refine ⟨by simp, fun h => ?_⟩
          have := h 1 (by omega)
          rw [hg] at this
          simp at this
        | none =>
          simp only [poke]
          refine ⟨fun _ i hi => ?_, by simp⟩
          have : i = 0 ∨ i = 1 := by omega
          rcases this with rfl | rfl
          · exact hf
          · exact hg
    · rw [if_neg hb, if_neg (by omega)]
      simp
  | succ longs ih =>
    rw [writeLoop]
    cases hf : fail op with
    | some j =>
      simp only [poke]
      refine ⟨by simp, fun h => ?_⟩
      have := h 0 (by omega)
      rw [Nat.add_zero, hf] at this
      simp at this
    | none =>
      simp only [poke]
      rw [ih (op + 1) (a + 8) (buf.drop 8) _ (by simp; omega) (by simp; omega)]
      have e : (8 * longs < (buf.drop 8).length) ↔ (8 * (longs + 1) < buf.length) := by simp; omega
      constructor
      · intro h i hi
        cases i with
        | zero => exact hf
        | succ i =>
          have := h i (by
            by_cases hc : 8 * (longs + 1) < buf.length
            · rw [if_pos hc] at hi; rw [if_pos (e.mpr hc)]; omega
            · rw [if_neg hc] at hi; rw [if_neg (fun x => hc (e.mp x))]; omega)
          rw [← this]; congr 1; omega
      · intro h i hi
        have := h (i + 1) (by
          by_cases hc : 8 * (longs + 1) < buf.length
          · rw [if_pos (e.mpr hc)] at hi; rw [if_pos hc]; omega
          · rw [if_neg (fun x => hc (e.mp x))] at hi; rw [if_neg hc]; omega)
        rw [← this]; congr 1; omega

/-- **C09** The write reports success exactly if none of the requests it makes fails: one per word, and
two more if the length is not a multiple of 8. -/
theorem C09_failure_reported (fail : Nat → Option Nat) (buf : List UInt8) (addr : Nat) (m : Mem) :
    (writeBytesPtrace fail buf addr m).2 = 0 ↔
      ∀ i, i < buf.length / 8 + (if buf.length % 8 = 0 then 0 else 2) → fail i = none := by
  have := writeLoop_reports fail (buf.length / 8) 0 addr buf m (by omega) (by omega)
  unfold writeBytesPtrace
  rw [this]
  by_cases hc : buf.length % 8 = 0
  · rw [if_pos hc, if_neg (by omega)]
    simp
  · rw [if_neg hc, if_pos (by omega)]
    simp

/-- Eleven bytes; the second word request fails after two bytes. -/
example : (writeBytesPtrace (fun _ => none) [1, 2, 3, 4, 5, 6, 7, 8, 9, 10, 11] 100 (fun _ => 0xcc)).2 = 0 ∧
    (writeBytesPtrace (fun i => if i = 2 then some 2 else none) [1, 2, 3, 4, 5, 6, 7, 8, 9, 10, 11] 100 (fun _ => 0xcc)).2 = 1 ∧
    (writeBytesPtrace (fun i => if i = 2 then some 2 else none) [1, 2, 3, 4, 5, 6, 7, 8, 9, 10, 11] 100
      (fun _ => 0xcc)).1.load 106 6 = [7, 8, 9, 10, 0xcc, 0xcc] := by
  decide +kernel

/-! ### C10 -/

/-- 0x01...01 with `k` bytes. -/
def ones : Nat → Nat
  | 0 => 0
  | k + 1 => 1 + 256 * ones k

theorem ones_lt (k) : ones k < 256 ^ k := by
  induction k with
  | zero => decide
  | succ k ih => rw [ones, Nat.pow_succ]; omega

/-- `hasbytezero` on `k` bytes, in natural numbers. -/
def hz (k l : Nat) : Nat :=
  ((l + (256 ^ k - ones k)) % 256 ^ k) &&& (256 ^ k - 1 - l) &&& (128 * ones k)

theorem land_split (a b : Nat) : (a &&& b) % 256 = (a % 256) &&& (b % 256) ∧ (a &&& b) / 256 = (a / 256) &&& (b / 256) := by
  constructor
  · have := Nat.and_mod_two_pow (a := a) (b := b) (n := 8)
    simpa using this
  · have := Nat.shiftRight_and_distrib (a := a) (b := b) (i := 8)
    simpa [Nat.shiftRight_eq_div_pow] using this

theorem hz_byte : ∀ b : Fin 256, b.1 ≠ 0 → (b.1 - 1) &&& (255 - b.1) &&& 128 = 0 := by decide +kernel

theorem hz_iff (bs : List UInt8) : hz bs.length (leVal bs) ≠ 0 ↔ (0 : UInt8) ∈ bs := by
  induction bs with
  | nil => simp [hz, ones]
  | cons b bs ih =>
    have hb := b.toNat_lt
    have hl := leVal_lt bs
    have ho := ones_lt bs.length
    have hp : (256 : Nat) ^ (bs.length + 1) = 256 * 256 ^ bs.length := by rw [Nat.pow_succ, Nat.mul_comm]
    have hlv : leVal (b :: bs) = b.toNat + 256 * leVal bs := rfl
    rw [List.length_cons]
    generalize hP : 256 ^ bs.length = P at *
    generalize hL : leVal bs = L at *
    generalize hO : ones bs.length = O at *
    have hones : ones (bs.length + 1) = 1 + 256 * O := by rw [ones, hO]
    have m3 : 256 * P - 1 - (b.toNat + 256 * L) = (255 - b.toNat) + 256 * (P - 1 - L) := by omega
    have m4 : 128 * (1 + 256 * O) = 128 + 256 * (128 * O) := by omega
    unfold hz
    rw [hp, hones, hlv, m3, m4]
    by_cases h0 : b.toNat = 0
    · have hmem : (0 : UInt8) ∈ b :: bs := by
        have : b = 0 := UInt8.toNat_inj.mp h0
        simp [this]
      refine ⟨fun _ => hmem, fun _ hc => ?_⟩
      have h1 := congrArg (· % 256) hc
      simp only [(land_split _ _).1] at h1
      have e1 : (b.toNat + 256 * L + (256 * P - (1 + 256 * O))) % (256 * P) % 256 = 255 := by
        rw [Nat.mod_mul_right_mod]
        omega
      have e2 : (255 - b.toNat + 256 * (P - 1 - L)) % 256 = 255 := by omega
      have e3 : (128 + 256 * (128 * O)) % 256 = 128 := by omega
      rw [e1, e2, e3] at h1
      exact absurd h1 (by decide)
    · have hz1 := hz_byte ⟨b.toNat, hb⟩ h0
      simp only at hz1
      have hmod : (b.toNat + 256 * L + (256 * P - (1 + 256 * O))) % (256 * P) =
          (b.toNat - 1) + 256 * ((L + (P - O)) % P) := by
        have : b.toNat + 256 * L + (256 * P - (1 + 256 * O)) = (b.toNat - 1) + 256 * (L + (P - O)) := by omega
        have h1 : (b.toNat - 1 + 256 * (L + (P - O))) % 256 = b.toNat - 1 := by omega
        have h2 : (b.toNat - 1 + 256 * (L + (P - O))) / 256 = L + (P - O) := by omega
        rw [this, Nat.mod_mul, h1, h2]
      rw [hmod]
      generalize hX : b.toNat - 1 + 256 * ((L + (P - O)) % P) = X
      generalize hY : 255 - b.toNat + 256 * (P - 1 - L) = Y
      generalize hZ : 128 + 256 * (128 * O) = Z
      have q1 : (X &&& Y &&& Z) % 256 = 0 := by
        rw [(land_split _ _).1, (land_split _ _).1]
        rw [show X % 256 = b.toNat - 1 by omega, show Y % 256 = 255 - b.toNat by omega, show Z % 256 = 128 by omega]
        exact hz1
      have q2 : (X &&& Y &&& Z) / 256 = hz bs.length L := by
        rw [(land_split _ _).2, (land_split _ _).2]
        rw [show X / 256 = (L + (P - O)) % P by omega, show Y / 256 = P - 1 - L by omega,
          show Z / 256 = 128 * O by omega]
        rw [hz, hP, hO]
      have hmem : (0 : UInt8) ∈ b :: bs ↔ (0 : UInt8) ∈ bs := by
        constructor
        · intro h
          rcases List.mem_cons.mp h with h | h
          · rw [← h] at h0; exact absurd rfl h0
          · exact h
        · exact List.mem_cons_of_mem _
      rw [hmem, ← ih, ← q2]
      omega

theorem hasbytezero_iff (w : List UInt8) (h : w.length = 8) : hasbytezero (asLong w) = true ↔ (0 : UInt8) ∈ w := by
  rw [← hz_iff w, h]
  have hl := leVal_lt w
  rw [h] at hl
  unfold hasbytezero asLong
  generalize leVal w = L at hl
  have hL : (UInt64.ofNat L).toNat = L := by
    rw [UInt64.toNat_ofNat']; exact Nat.mod_eq_of_lt hl
  have key : ((UInt64.ofNat L - 0x0101010101010101) &&& ~~~ (UInt64.ofNat L) &&& 0x8080808080808080).toNat = hz 8 L := by
    rw [UInt64.toNat_and, UInt64.toNat_and, UInt64.toNat_sub, UInt64.toNat_not, hL]
    unfold hz
    have e1 : (0x0101010101010101 : UInt64).toNat = ones 8 := by decide
    have e2 : (0x8080808080808080 : UInt64).toNat = 128 * ones 8 := by decide
    have e3 : (2 : Nat) ^ 64 = 256 ^ 8 := by decide
    rw [e1, e2, e3, Nat.add_comm]
  rw [← key]
  simp only [bne_iff_ne, ne_eq]
  exact not_congr ⟨fun h => by rw [h]; rfl, fun h => UInt64.toNat_inj.mp h⟩

/-- A string and its terminator are at `a`. -/
def HoldsString (m : Mem) (a : Nat) (s : Str) : Prop := At m a (s ++ [0]) ∧ (0 : UInt8) ∉ s

theorem holds_byte {m : Mem} {a s} (h : HoldsString m a s) : (∀ i, (hi : i < s.length) → m (a + i) = s[i]) ∧
    m (a + s.length) = 0 := by
  obtain ⟨h1, -⟩ := h
  rw [at_append] at h1
  obtain ⟨h2, h3⟩ := h1
  constructor
  · intro i hi
    have hle : i < (m.load a s.length).length := by simpa using hi
    have := load_getElem m a s.length i hle
    rw [← this]
    have h2' : m.load a s.length = s := h2
    exact List.getElem_of_eq h2' hle
  · exact (at_cons.mp h3).1

theorem load_has_zero {m : Mem} {a s} (h : HoldsString m a s) (k : Nat) :
    (0 : UInt8) ∈ m.load a k ↔ s.length < k := by
  obtain ⟨h1, h2⟩ := holds_byte h
  constructor
  · intro hz
    refine Decidable.byContradiction fun hc => h.2 ?_
    obtain ⟨i, hi, he⟩ := List.mem_iff_getElem.mp hz
    rw [load_getElem] at he
    have hi' : i < k := by simpa using hi
    rw [h1 i (by omega)] at he
    rw [← he]
    exact List.getElem_mem _
  · intro hk
    refine List.mem_iff_getElem.mpr ⟨s.length, by simpa using hk, ?_⟩
    rw [load_getElem, h2]

/-- The string that a buffer of at least its length, loaded from `a`, starts with. -/
theorem cstr_load {m : Mem} {a s} (h : HoldsString m a s) (k : Nat) (hk : s.length < k) (rest : List UInt8) :
    cstr (m.load a k ++ rest) = s := by
  obtain ⟨h1, h0⟩ := h
  have hs : m.load a k = s ++ 0 :: m.load (a + (s.length + 1)) (k - (s.length + 1)) := by
    have : k = (s.length + 1) + (k - (s.length + 1)) := by omega
    conv => lhs; rw [this, load_append]
    unfold At at h1
    rw [List.length_append, List.length_singleton] at h1
    rw [h1]
    simp
  unfold cstr
  rw [hs, List.append_assoc, List.takeWhile_append_of_pos (by intro c hc; simp; rintro rfl; exact h0 hc)]
  simp

theorem readLong_ok {readable m a} (h : ∀ i, i < 8 → readable (a + i) = true) :
    readLong readable m a = some (m.load a 8) := by
  unfold readLong
  rw [if_pos]
  rw [List.all_eq_true]
  intro i hi
  exact h i (List.mem_range.mp hi)

theorem readStringLoop_ok {readable : Nat → Bool} {m a s} (h : HoldsString m a s)
    (hr : ∀ i, i < 8 * (s.length / 8 + 1) → readable (a + i) = true) (n j cap : Nat) (hj : j + n = s.length / 8)
    (hc : 0 < cap) (hcap : j ≤ cap) (fuel : Nat) :
    readStringLoop (readLong readable m) (fuel + n + 1) cap (a + 8 * j) (m.load a (8 * j)) =
      some (.ok (m.load a (8 * (s.length / 8 + 1)))) := by
  induction n generalizing j cap with
  | zero =>
    rw [Nat.add_zero, readStringLoop]
    simp only [load_length]
    have e : 8 * j / 8 = j := by omega
    rw [e]
    have hno : ¬ ((if cap ≤ j then cap * 2 else cap) ≤ j) := by split <;> omega
    rw [if_neg hno, readLong_ok (fun i hi => by rw [Nat.add_assoc]; exact hr _ (by omega))]
    simp only
    have hz : hasbytezero (asLong (m.load (a + 8 * j) 8)) = true := by
      rw [hasbytezero_iff _ (by simp)]
      have := (load_has_zero h (8 * j + 8)).mpr (by omega)
      rw [load_append] at this
      rcases List.mem_append.mp this with h' | h'
      · have := (load_has_zero h (8 * j)).mp h'; omega
      · exact h'
    rw [if_pos hz, ← load_append]
    congr 3
    omega
  | succ n ih =>
    rw [show fuel + (n + 1) + 1 = (fuel + n + 1) + 1 by omega, readStringLoop]
    simp only [load_length]
    have e : 8 * j / 8 = j := by omega
    rw [e]
    have hno : ¬ ((if cap ≤ j then cap * 2 else cap) ≤ j) := by split <;> omega
    rw [if_neg hno, readLong_ok (fun i hi => by rw [Nat.add_assoc]; exact hr _ (by omega))]
    simp only
    have hz : ¬ hasbytezero (asLong (m.load (a + 8 * j) 8)) = true := by
      rw [hasbytezero_iff _ (by simp)]
      intro hm
      have : (0 : UInt8) ∈ m.load a (8 * j + 8) := by rw [load_append]; exact List.mem_append_right _ hm
      have := (load_has_zero h (8 * j + 8)).mp this
      omega
    rw [if_neg hz, ← load_append]
    have := ih (j + 1) (if cap ≤ j then cap * 2 else cap) (by omega) (by split <;> omega) (by split <;> omega)
    exact this

/-- **C10**, the part that is true: if the words that cover the string are readable, `read_string` ends
after as many words, never writes outside of its buffer, and the C string it returns is exactly the
remote one; whatever follows it, and for any length.  Missing: a string close to the end of a mapping
(`C10_string_at_mapping_end_fails`). -/
theorem C10_read_string_partial {readable : Nat → Bool} {m : Mem} {a : Nat} {s : Str} (h : HoldsString m a s)
    (hr : ∀ i, i < 8 * (s.length / 8 + 1) → readable (a + i) = true) (fuel : Nat) (hf : s.length / 8 < fuel) :
    ∃ buf, readString readable m a fuel = some (.ok buf) ∧ cstr buf = s := by
  refine ⟨m.load a (8 * (s.length / 8 + 1)), ?_, ?_⟩
  · have := readStringLoop_ok h hr (s.length / 8) 0 8 (by omega) (by omega) (by omega) (fuel - s.length / 8 - 1)
    unfold readString
    rw [← this]
    congr 1
    omega
  · have := cstr_load h (8 * (s.length / 8 + 1)) (by omega) []
    simpa using this

/-- The loop of `read_string_allocated`, having read `j` words without NUL. -/
theorem readAllocatedLoop_ok {readable : Nat → Bool} {m a s} (h : HoldsString m a s) (buf : List UInt8)
    (hb : s.length < buf.length) (hr : ∀ i, i < 8 * (s.length / 8 + 1) → readable (a + i) = true)
    (n j : Nat) (hn : j + n = buf.length / 8) (hj : 8 * j ≤ s.length) :
    ∃ buf', readAllocatedLoop (readLong readable m) (buf.length % 8) n (a + 8 * j) (8 * j)
        (m.load a (8 * j) ++ buf.drop (8 * j)) = .ok buf' ∧ cstr buf' = s ∧ buf'.length = buf.length := by
  induction n generalizing j with
  | zero =>
    rw [readAllocatedLoop, if_pos (by omega), readLong_ok (fun i hi => by rw [Nat.add_assoc]; exact hr _ (by omega))]
    refine ⟨_, rfl, ?_, ?_⟩
    · rw [List.take_left' (by simp)]
      have ht : (m.load (a + 8 * j) 8).take (buf.length % 8) = m.load (a + 8 * j) (buf.length % 8) := by
        have hb8 : buf.length % 8 < 8 := Nat.mod_lt _ (by decide)
        generalize buf.length % 8 = r at hb8
        have : m.load (a + 8 * j) 8 = m.load (a + 8 * j) r ++ m.load (a + 8 * j + r) (8 - r) := by
          rw [← load_append]; congr 1; omega
        rw [this, List.take_left' (by simp)]
      rw [ht, ← load_append]
      exact cstr_load h _ (by omega) _
    · simp
      omega
  | succ n ih =>
    rw [readAllocatedLoop, readLong_ok (fun i hi => by rw [Nat.add_assoc]; exact hr _ (by omega))]
    simp only
    have e1 : (m.load a (8 * j) ++ buf.drop (8 * j)).take (8 * j) = m.load a (8 * j) := List.take_left' (by simp)
    have e2 : (m.load a (8 * j) ++ buf.drop (8 * j)).drop (8 * j + 8) = buf.drop (8 * j + 8) := by
      rw [List.drop_append, List.drop_of_length_le (by simp), List.drop_drop]
      simp
    rw [e1, e2, ← load_append]
    by_cases hz : hasbytezero (asLong (m.load (a + 8 * j) 8)) = true
    · rw [if_pos hz]
      rw [hasbytezero_iff _ (by simp)] at hz
      have hk : s.length < 8 * j + 8 := by
        refine (load_has_zero h (8 * j + 8)).mp ?_
        rw [load_append]
        exact List.mem_append_right _ hz
      exact ⟨_, rfl, cstr_load h _ hk _, by simp; omega⟩
    · rw [if_neg hz]
      rw [hasbytezero_iff _ (by simp)] at hz
      have hk : ¬ s.length < 8 * j + 8 := by
        intro hc
        have := (load_has_zero h (8 * j + 8)).mpr hc
        rw [load_append] at this
        rcases List.mem_append.mp this with h' | h'
        · have := (load_has_zero h (8 * j)).mp h'; omega
        · exact hz h'
      have := ih (j + 1) (by omega) (by omega)
      exact this

/-- **C10**, same for `read_string_allocated`: if the string and its terminator fit the buffer, the buffer
holds exactly the remote string, and nothing outside of the buffer is written. -/
theorem C10_read_string_allocated_partial {readable : Nat → Bool} {m : Mem} {a : Nat} {s : Str} (h : HoldsString m a s)
    (hr : ∀ i, i < 8 * (s.length / 8 + 1) → readable (a + i) = true) (buf : List UInt8) (hb : s.length < buf.length) :
    ∃ buf', readStringAllocated readable m a buf = .ok buf' ∧ cstr buf' = s ∧ buf'.length = buf.length := by
  have := readAllocatedLoop_ok h buf hb hr (buf.length / 8) 0 (by omega) (by omega)
  exact this

/-- The loop of `read_string_allocated`, for a string that does not fit. -/
theorem readAllocatedLoop_long {readable : Nat → Bool} {m a s} (h : HoldsString m a s) (buf : List UInt8)
    (hb : buf.length ≤ s.length) (hr : ∀ i, i < buf.length + 8 → readable (a + i) = true)
    (n j : Nat) (hn : j + n = buf.length / 8) :
    readAllocatedLoop (readLong readable m) (buf.length % 8) n (a + 8 * j) (8 * j)
        (m.load a (8 * j) ++ buf.drop (8 * j)) = .ok (m.load a buf.length) := by
  induction n generalizing j with
  | zero =>
    rw [readAllocatedLoop]
    split
    · rw [readLong_ok (fun i hi => by rw [Nat.add_assoc]; exact hr _ (by omega))]
      simp only
      rw [List.take_left' (by simp)]
      have ht : (m.load (a + 8 * j) 8).take (buf.length % 8) = m.load (a + 8 * j) (buf.length % 8) := by
        have hb8 : buf.length % 8 < 8 := Nat.mod_lt _ (by decide)
        generalize buf.length % 8 = r at hb8
        have : m.load (a + 8 * j) 8 = m.load (a + 8 * j) r ++ m.load (a + 8 * j + r) (8 - r) := by
          rw [← load_append]; congr 1; omega
        rw [this, List.take_left' (by simp)]
      rw [ht, ← load_append, show 8 * j + buf.length % 8 = buf.length by omega,
        List.drop_of_length_le (by simp; omega), List.append_nil]
    · have e : 8 * j = buf.length := by omega
      rw [e, List.drop_length, List.append_nil]
  | succ n ih =>
    rw [readAllocatedLoop, readLong_ok (fun i hi => by rw [Nat.add_assoc]; exact hr _ (by omega))]
    simp only
    have e1 : (m.load a (8 * j) ++ buf.drop (8 * j)).take (8 * j) = m.load a (8 * j) := List.take_left' (by simp)
    have e2 : (m.load a (8 * j) ++ buf.drop (8 * j)).drop (8 * j + 8) = buf.drop (8 * j + 8) := by
      rw [List.drop_append, List.drop_of_length_le (by simp), List.drop_drop]
      simp
    rw [e1, e2, ← load_append]
    have hz : ¬ hasbytezero (asLong (m.load (a + 8 * j) 8)) = true := by
      rw [hasbytezero_iff _ (by simp)]
      intro hm
      have : (0 : UInt8) ∈ m.load a (8 * j + 8) := by rw [load_append]; exact List.mem_append_right _ hm
      have := (load_has_zero h (8 * j + 8)).mp this
      omega
    rw [if_neg hz]
    exact ih (j + 1) (by omega)

/-- What `read_string_allocated` does with a string that does not fit: it reports success and fills the
buffer with its beginning, without a terminator. -/
theorem C10_allocated_too_long_unterminated {readable : Nat → Bool} {m : Mem} {a : Nat} {s : Str} (h : HoldsString m a s)
    (buf : List UInt8) (hb : buf.length ≤ s.length) (hr : ∀ i, i < buf.length + 8 → readable (a + i) = true) :
    readStringAllocated readable m a buf = .ok (s.take buf.length) ∧ (0 : UInt8) ∉ s.take buf.length := by
  refine ⟨?_, fun hc => h.2 (List.mem_of_mem_take hc)⟩
  have := readAllocatedLoop_long h buf hb hr (buf.length / 8) 0 (by omega)
  have e : m.load a buf.length = s.take buf.length := by
    have h1 := h.1
    rw [at_append] at h1
    have h2 : m.load a s.length = s := h1.1
    have : m.load a s.length = m.load a buf.length ++ m.load (a + buf.length) (s.length - buf.length) := by
      rw [← load_append]; congr 1; omega
    rw [h2] at this
    conv => rhs; rw [this]
    rw [List.take_left' (by simp)]
  rw [← e]
  exact this

/-- Negation of **C10**: a string that is readable up to and including its terminator, but whose last
word reaches beyond the end of the readable memory, cannot be read. -/
theorem C10_string_at_mapping_end_fails {readable : Nat → Bool} {m : Mem} {a : Nat} {s : Str} (h : HoldsString m a s)
    (hr : ∀ i, i ≤ s.length → readable (a + i) = true) (hend : readable (a + (8 * (s.length / 8) + 7)) = false)
    (fuel : Nat) (hf : s.length / 8 < fuel) :
    readString readable m a fuel = some .fail := by
  have key : ∀ n j cap fuel, j + n = s.length / 8 → 0 < cap → j ≤ cap →
      readStringLoop (readLong readable m) (fuel + n + 1) cap (a + 8 * j) (m.load a (8 * j)) = some .fail := by
    intro n
    induction n with
    | zero =>
      intro j cap fuel hj hc hcap
      rw [Nat.add_zero, readStringLoop]
      simp only [load_length]
      have e : 8 * j / 8 = j := by omega
      rw [e]
      have hno : ¬ ((if cap ≤ j then cap * 2 else cap) ≤ j) := by split <;> omega
      rw [if_neg hno]
      have : readLong readable m (a + 8 * j) = none := by
        unfold readLong
        rw [if_neg]
        rw [List.all_eq_true]
        intro hall
        have := hall 7 (by decide)
        rw [Nat.add_assoc, show 8 * j + 7 = 8 * (s.length / 8) + 7 by omega, hend] at this
        simp at this
      rw [this]
    | succ n ih =>
      intro j cap fuel hj hc hcap
      rw [show fuel + (n + 1) + 1 = (fuel + n + 1) + 1 by omega, readStringLoop]
      simp only [load_length]
      have e : 8 * j / 8 = j := by omega
      rw [e]
      have hno : ¬ ((if cap ≤ j then cap * 2 else cap) ≤ j) := by split <;> omega
      rw [if_neg hno, readLong_ok (fun i hi => by rw [Nat.add_assoc]; exact hr _ (by omega))]
      simp only
      have hz : ¬ hasbytezero (asLong (m.load (a + 8 * j) 8)) = true := by
        rw [hasbytezero_iff _ (by simp)]
        intro hm
        have : (0 : UInt8) ∈ m.load a (8 * j + 8) := by rw [load_append]; exact List.mem_append_right _ hm
        have := (load_has_zero h (8 * j + 8)).mp this
        omega
      rw [if_neg hz, ← load_append]
      have := ih (j + 1) (if cap ≤ j then cap * 2 else cap) fuel (by omega) (by split <;> omega) (by split <;> omega)
      exact this
  have := key (s.length / 8) 0 8 (fuel - s.length / 8 - 1) (by omega) (by omega) (by omega)
  unfold readString
  rw [← this]
  congr 1
  omega

/-- "libc.so.6" at 100, followed by bytes other than zero. -/
def demoMem : Mem := Mem.store (fun _ => 0xff) 100 [108, 105, 98, 99, 46, 115, 111, 46, 54, 0]

theorem demo_holds : HoldsString demoMem 100 [108, 105, 98, 99, 46, 115, 111, 46, 54] :=
  ⟨by unfold At; decide +kernel, by decide⟩

example : (∃ buf, readString (fun _ => true) demoMem 100 2 = some (.ok buf) ∧ cstr buf = [108, 105, 98, 99, 46, 115, 111, 46, 54]) ∧
    (∃ buf, readStringAllocated (fun _ => true) demoMem 100 (List.replicate 13 7) = .ok buf ∧
      cstr buf = [108, 105, 98, 99, 46, 115, 111, 46, 54] ∧ buf.length = 13) ∧
    readStringAllocated (fun _ => true) demoMem 100 [7, 7, 7, 7] = .ok [108, 105, 98, 99] ∧
    readString (fun i => i < 112) demoMem 100 2 = some .fail :=
  ⟨C10_read_string_partial demo_holds (fun _ _ => rfl) 2 (by decide),
   C10_read_string_allocated_partial demo_holds (fun _ _ => rfl) (List.replicate 13 7) (by decide),
   (C10_allocated_too_long_unterminated demo_holds [7, 7, 7, 7] (by decide) (fun _ _ => rfl)).1,
   C10_string_at_mapping_end_fails demo_holds (fun i hi => by simp at hi ⊢; omega) (by decide) 2 (by decide)⟩

/-! ### C11 -/

/-- **C11**, the part that is true: if the kernel never splits a transfer, the first call settles it: all
bytes are transferred and 0 is returned, or nothing is transferred and an error is returned.
Missing: split transfers (`C11_split_transfer_lost`, `C11_split_transfer_hangs`). -/
theorem C11_bulk_partial (ret : Nat → Option Nat) (src dst : List UInt8) (hl : dst.length = src.length)
    (h64 : src.length < 2 ^ 64) (hk : ret 0 = none ∨ ret 0 = some src.length) (fuel : Nat) :
    bulk ret src dst (fuel + 1) = some (if ret 0 = none then ⟨dst, false⟩ else ⟨src, true⟩) := by
  unfold bulk bulkLoop
  rcases hk with hk | hk
  · rw [hk]; rfl
  · rw [hk]
    simp only [Nat.zero_add, Nat.mod_eq_of_lt h64, List.take_length]
    rw [List.drop_of_length_le (by omega)]
    simp

/-- Negation of **C11**: a transfer split into two equal halves is reported as complete although its second
half was never transferred. -/
theorem C11_split_transfer_lost (half rest dst : List UInt8) (hh : half.length = rest.length)
    (hd : dst.length = 2 * half.length) (hn : 0 < half.length) (h64 : 2 * half.length < 2 ^ 64) (fuel : Nat) :
    bulk (fun _ => some half.length) (half ++ rest) dst (fuel + 2) = some ⟨half ++ dst.drop half.length, true⟩ := by
  unfold bulk
  rw [bulkLoop]
  simp only [Nat.zero_add, List.length_append, Nat.mod_eq_of_lt (show half.length < 2 ^ 64 by omega)]
  rw [if_neg (by omega), bulkLoop]
  simp only [List.length_append]
  rw [if_pos (by rw [Nat.mod_eq_of_lt (by omega)]; omega), List.take_left, List.drop_left]

/-- Negation of **C11**: a transfer of an odd number of bytes of which the kernel moves an even number at a
time never ends. -/
theorem C11_split_transfer_hangs (ret : Nat → Option Nat) (src dst : List UInt8) (hodd : src.length % 2 = 1)
    (hr : ∀ i, ∃ k, ret i = some (2 * k)) (fuel : Nat) : bulk ret src dst fuel = none := by
  have key : ∀ fuel i acc dst, acc % 2 = 0 → bulkLoop ret src fuel i acc dst = none := by
    intro fuel
    induction fuel with
    | zero => intros; rfl
    | succ fuel ih =>
      intro i acc dst ha
      obtain ⟨k, hk⟩ := hr i
      rw [bulkLoop, hk]
      simp only
      rw [if_neg (by omega)]
      exact ih _ _ _ (by omega)
  exact key fuel 0 0 dst rfl

example : bulk (fun _ => some 2) [1, 2, 3, 4] [9, 9, 9, 9] 2 = some ⟨[1, 2, 9, 9], true⟩ ∧
    bulk (fun _ => some 4) [1, 2, 3, 4] [9, 9, 9, 9] 1 = some ⟨[1, 2, 3, 4], true⟩ ∧
    bulk (fun _ => some 6) [1, 2, 3, 4, 5, 6, 7, 8, 9] (List.replicate 9 0) 50 = none := by
  decide

/-! ### C12 -/

/-- **C12** With the red zone of either architecture, the stack pointer given to the routine is 64-byte
aligned and lies at least the red zone, and less than the red zone plus 64, below the interrupted
one. -/
theorem C12_stack_below_red_zone (redZone sp : UInt64) (hz : redZone = 128 ∨ redZone = 512) (h : redZone ≤ sp) :
    (redirectSp redZone sp).toNat % 64 = 0 ∧ (redirectSp redZone sp).toNat + redZone.toNat ≤ sp.toNat ∧
    sp.toNat < (redirectSp redZone sp).toNat + redZone.toNat + 64 := by
  have hs := sp.toNat_lt
  have hle : redZone.toNat ≤ sp.toNat := UInt64.le_iff_toNat_le.mp h
  have hsub : (sp - redZone).toNat = sp.toNat - redZone.toNat := UInt64.toNat_sub_of_le _ _ h
  have hand : (redirectSp redZone sp).toNat = (sp.toNat - redZone.toNat) / 64 * 64 := by
    unfold redirectSp
    rw [UInt64.toNat_and, hsub]
    generalize hx : sp.toNat - redZone.toNat = x
    have hx' : x < 2 ^ 64 := by omega
    show x &&& (2 ^ 64 - 2 ^ 6) = x / 64 * 64
    apply Nat.eq_of_testBit_eq
    intro i
    have e : x / 64 * 64 = (x >>> 6) <<< 6 := by rw [Nat.shiftRight_eq_div_pow, Nat.shiftLeft_eq]
    rw [e, Nat.testBit_and, Nat.testBit_shiftLeft, Nat.testBit_shiftRight]
    have hm : (2 ^ 64 - 2 ^ 6 : Nat) = (2 ^ 58 - 1) <<< 6 := by decide
    rw [hm, Nat.testBit_shiftLeft, Nat.testBit_two_pow_sub_one]
    by_cases h6 : 6 ≤ i
    · by_cases h64 : i < 64
      · simp [h6, show i - 6 < 58 by omega, show 6 + (i - 6) = i by omega]
      · have : x.testBit i = false := Nat.testBit_lt_two_pow (Nat.lt_of_lt_of_le hx' (Nat.pow_le_pow_right (by omega) (by omega)))
        simp [this, show 6 + (i - 6) = i by omega]
    · simp [h6]
  rw [hand]
  omega

example : redirectSp 128 0x7ffc12345678 = 0x7ffc123455c0 ∧ redirectSp 512 0x7ffc12345678 = 0x7ffc12345440 := by decide

/-! ### More cases -/

/-- Eleven bytes, the third write failing after two bytes. -/
example : ∃ k, k ≤ 11 ∧ (writeBytesPtrace (fun i => if i = 2 then some 2 else none) [1, 2, 3, 4, 5, 6, 7, 8, 9, 10, 11] 100 (fun _ => 0xcc)).1 =
    Mem.store (fun _ => 0xcc) 100 (List.take k [1, 2, 3, 4, 5, 6, 7, 8, 9, 10, 11]) :=
  ((C09_write_exact (fun i => if i = 2 then some 2 else none) [1, 2, 3, 4, 5, 6, 7, 8, 9, 10, 11] 100 (fun _ => 0xcc)).2
    (by decide +kernel)).2

example : (writeBytesPtrace (fun _ => none) [1, 2, 3, 4, 5, 6, 7, 8, 9, 10, 11] 100 (fun _ => 0xcc)).1 (100 + 9) = 10 :=
  (C09_write_bytes (fun _ => none) [1, 2, 3, 4, 5, 6, 7, 8, 9, 10, 11] 100 (fun _ => 0xcc) 9).2 (by decide +kernel) (by decide)

example : (writeBytesPtrace (fun _ => none) [1, 2, 3, 4, 5, 6, 7, 8, 9, 10, 11] 100 (fun _ => 0xcc)).2 = 0 :=
  (C09_failure_reported (fun _ => none) _ _ _).2 fun _ _ => rfl

example : bulk (fun _ => some 4) [1, 2, 3, 4] [9, 9, 9, 9] 1 = some ⟨[1, 2, 3, 4], true⟩ :=
  C11_bulk_partial (fun _ => some 4) [1, 2, 3, 4] [9, 9, 9, 9] rfl (by decide) (Or.inr rfl) 0

example : bulk (fun _ => some 2) [1, 2, 3, 4] [9, 9, 9, 9] 2 = some ⟨[1, 2, 9, 9], true⟩ :=
  C11_split_transfer_lost [1, 2] [3, 4] [9, 9, 9, 9] rfl rfl (by decide) (by decide) 0

example : bulk (fun _ => some 6) [1, 2, 3, 4, 5, 6, 7, 8, 9] (List.replicate 9 0) 1000 = none :=
  C11_split_transfer_hangs (fun _ => some 6) [1, 2, 3, 4, 5, 6, 7, 8, 9] _ rfl (fun _ => ⟨3, rfl⟩) 1000

example := C12_stack_below_red_zone 128 0x7ffc12345678 (Or.inl rfl) (by decide)

example := C12_stack_below_red_zone 512 0x7ffc12345678 (Or.inr rfl) (by decide)

end Verif.Ptrace
