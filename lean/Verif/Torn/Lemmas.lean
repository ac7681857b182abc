import Verif.Torn.Model
import Verif.Torn.Spec
import Verif.X86.Lemmas
import Verif.Power.Invariant
import Verif.Ptrace.Props

namespace Verif.Torn

open Verif.Ptrace (writeLoop writeBytesPtrace poke store_remainder)

/-! ### what a write leaves when the tool ends in it -/

theorem remainder_take (m : Mem) (a j : Nat) (buf : List UInt8) (h : buf.length ≤ 8) :
    m.store a ((buf ++ (m.load a 8).drop buf.length).take j) = m.store a (buf.take j) := by
  by_cases hj : j ≤ buf.length
  · rw [List.take_append_of_le_length hj]
  · rw [List.take_append, List.take_of_length_le (by omega)]
    have : (m.load a 8).drop buf.length = (m.store a buf).load (a + buf.length) (8 - buf.length) := by
      rw [load_store_out (Or.inr (Nat.le_refl _))]
      have h8 : m.load a 8 = m.load a buf.length ++ m.load (a + buf.length) (8 - buf.length) := by
        rw [← load_append]; congr 1; omega
      rw [h8, List.drop_left' (by simp)]
    have ht : ((m.store a buf).load (a + buf.length) (8 - buf.length)).take (j - buf.length) =
        (m.store a buf).load (a + buf.length) (min (j - buf.length) (8 - buf.length)) := by
      have : 8 - buf.length = min (j - buf.length) (8 - buf.length) +
          (8 - buf.length - min (j - buf.length) (8 - buf.length)) := by omega
      conv => lhs; rw [this, load_append]
      rw [List.take_append]
      by_cases hc : j - buf.length ≤ 8 - buf.length
      · rw [Nat.min_eq_left hc, List.take_of_length_le (by simp)]
        simp
      · rw [Nat.min_eq_right (by omega), List.take_of_length_le (by simp; omega)]
        simp [Mem.load]
    rw [store_append, this, ht, store_load]

theorem writeLoop_cut (d : Nat) (hd : d ∣ 8) (fail : Nat → Option Nat) (hfail : ∀ i j, fail i = some j → d ∣ j) :
    ∀ (longs op a : Nat) (buf : List UInt8) (m : Mem), longs = buf.length / 8 → d ∣ buf.length →
      ((writeLoop fail longs op a buf m).2 = 0 ∧ (writeLoop fail longs op a buf m).1 = m.store a buf) ∨
      ((writeLoop fail longs op a buf m).2 = 1 ∧ ∃ k, d ∣ k ∧ k ≤ buf.length ∧
        (writeLoop fail longs op a buf m).1 = m.store a (buf.take k)) := by
  intro longs
  induction longs with
  | zero =>
    intro op a buf m hl hb
    rw [writeLoop]
    by_cases h0 : 0 < buf.length
    · rw [if_pos h0]
      cases hf : fail op with
      | some j => exact .inr ⟨rfl, 0, Nat.dvd_zero _, by omega, by simp [store_nil]⟩
      | none =>
        simp only
        cases hg : fail (op + 1) with
        | none =>
          simp only [poke]
          exact .inl ⟨by simp, store_remainder m a buf (by omega)⟩
        | some j =>
          simp only [poke]
          refine .inr ⟨by simp, min j buf.length, ?_, by omega, ?_⟩
          · rcases Nat.le_total j buf.length with h | h
            · rw [Nat.min_eq_left h]; exact hfail _ _ hg
            · rw [Nat.min_eq_right h]; exact hb
          · rw [remainder_take m a j buf (by omega)]
            congr 1
            rw [List.take_eq_take_min]
    · rw [if_neg h0]
      have : buf = [] := List.length_eq_zero_iff.mp (by omega)
      subst this
      exact .inl ⟨rfl, (store_nil m a).symm⟩
  | succ longs ih =>
    intro op a buf m hl hb
    rw [writeLoop]
    cases hf : fail op with
    | some j =>
      simp only [poke]
      refine .inr ⟨by simp, min j 8, ?_, by omega, ?_⟩
      · rcases Nat.le_total j 8 with h | h
        · rw [Nat.min_eq_left h]; exact hfail _ _ hf
        · rw [Nat.min_eq_right h]; exact hd
      · rw [List.take_take]
    | none =>
      simp only [poke]
      have hlen : (buf.take 8).length = 8 := by simp; omega
      have hst : ∀ x, (m.store a (buf.take 8)).store (a + 8) x = m.store a (buf.take 8 ++ x) := by
        intro x; rw [store_append, hlen]
      have hdrop : d ∣ (buf.drop 8).length := by
        rw [List.length_drop]; exact Nat.dvd_sub hb hd
      rcases ih (op + 1) (a + 8) (buf.drop 8) (m.store a (buf.take 8)) (by simp; omega) hdrop with ⟨e1, e2⟩ | ⟨e1, k, hk, hk2, e2⟩
      · exact .inl ⟨e1, by rw [e2, hst, List.take_append_drop]⟩
      · refine .inr ⟨e1, 8 + k, Nat.dvd_add hd hk, by simp at hk2; omega, ?_⟩
        rw [e2, hst, List.take_add]

theorem write_cut {d : Nat} (hd : d ∣ 8) {fail : Nat → Option Nat} (hfail : ∀ i j, fail i = some j → d ∣ j)
    (buf : List UInt8) (hb : d ∣ buf.length) (a : Nat) (m : Mem) :
    ((writeBytesPtrace fail buf a m).2 = 0 ∧ (writeBytesPtrace fail buf a m).1 = m.store a buf) ∨
    ((writeBytesPtrace fail buf a m).2 = 1 ∧ ∃ k, d ∣ k ∧ k ≤ buf.length ∧
      (writeBytesPtrace fail buf a m).1 = m.store a (buf.take k)) :=
  writeLoop_cut d hd fail hfail _ 0 a buf m rfl hb

theorem execute_one {d : Nat} (hd : d ∣ 8) {stop : Nat → Nat → Option Nat} (hs : Aligned d stop)
    (buf : List UInt8) (hb : d ∣ buf.length) (w a : Nat) (m : Mem) :
    ∃ k, d ∣ k ∧ k ≤ buf.length ∧ execute stop w [(a, buf)] m = m.store a (buf.take k) := by
  rcases write_cut hd (hs w) buf hb a m with ⟨e1, e2⟩ | ⟨e1, k, hk, hk2, e2⟩
  · refine ⟨buf.length, hb, Nat.le_refl _, ?_⟩
    rw [execute, show writeBytesPtrace (stop w) buf a m = (m.store a buf, 0) from Prod.ext e2 e1]
    simp [execute]
  · refine ⟨k, hk, hk2, ?_⟩
    rw [execute, show writeBytesPtrace (stop w) buf a m = (m.store a (buf.take k), 1) from Prod.ext e2 e1]

theorem execute_two {d : Nat} (hd : d ∣ 8) {stop : Nat → Nat → Option Nat} (hs : Aligned d stop)
    (buf buf' : List UInt8) (hb : d ∣ buf.length) (hb' : d ∣ buf'.length) (w a a' : Nat) (m : Mem) :
    (∃ k, d ∣ k ∧ k ≤ buf.length ∧ execute stop w [(a, buf), (a', buf')] m = m.store a (buf.take k)) ∨
    ∃ k, d ∣ k ∧ k ≤ buf'.length ∧ execute stop w [(a, buf), (a', buf')] m = (m.store a buf).store a' (buf'.take k) := by
  rcases write_cut hd (hs w) buf hb a m with ⟨e1, e2⟩ | ⟨e1, k, hk, hk2, e2⟩
  · right
    obtain ⟨k, hk, hk2, e⟩ := execute_one hd hs buf' hb' (w + 1) a' (m.store a buf)
    refine ⟨k, hk, hk2, ?_⟩
    rw [execute, show writeBytesPtrace (stop w) buf a m = (m.store a buf, 0) from Prod.ext e2 e1]
    exact e
  · left
    refine ⟨k, hk, hk2, ?_⟩
    rw [execute, show writeBytesPtrace (stop w) buf a m = (m.store a (buf.take k), 1) from Prod.ext e2 e1]

/-! ### bytes partly written -/

theorem splice_left (A X Y : List UInt8) (k : Nat) :
    (A ++ X).take k ++ (A ++ Y).drop k = A ++ (X.take (k - A.length) ++ Y.drop (k - A.length)) := by
  rw [List.take_append, List.drop_append]
  by_cases h : k ≤ A.length
  · rw [Nat.sub_eq_zero_of_le h]
    simp only [List.take_zero, List.append_nil, List.drop_zero, List.nil_append]
    rw [← List.append_assoc, List.take_append_drop]
  · rw [List.take_of_length_le (by omega), List.drop_eq_nil_of_le (by omega)]
    simp

theorem splice_right (X Y B : List UInt8) (h : X.length = Y.length) (k : Nat) :
    (X ++ B).take k ++ (Y ++ B).drop k = (X.take k ++ Y.drop k) ++ B := by
  rw [List.take_append, List.drop_append, h]
  by_cases hk : k ≤ Y.length
  · rw [Nat.sub_eq_zero_of_le hk]; simp
  · rw [List.drop_eq_nil_of_le (by omega)]
    simp

theorem at_splice {m : Mem} {a : Nat} {l l0 : List UInt8} (h : At m a l0) (hl : l.length = l0.length) (k : Nat) :
    At (m.store a (l.take k)) a (l.take k ++ l0.drop k) := by
  rw [at_append]
  refine ⟨at_store _ _ _, ?_⟩
  have h0 : At m a (l0.take k ++ l0.drop k) := by rwa [List.take_append_drop]
  rw [at_append] at h0
  have e : (l.take k).length = (l0.take k).length := by simp [hl]
  rw [e]
  refine (at_congr ?_).mp h0.2
  intro i h1 _
  rw [store_out (by omega)]

theorem le_mix (n j new old : Nat) : le n (mix j new old) = (le n new).take j ++ (le n old).drop j := by
  induction n generalizing j new old with
  | zero => simp [le]
  | succ n ih =>
    cases j with
    | zero => simp [mix, Nat.mod_one]
    | succ j =>
      have hp : 256 ^ (j + 1) = 256 * 256 ^ j := by rw [Nat.pow_succ, Nat.mul_comm]
      have e1 : mix (j + 1) new old / 256 = mix j (new / 256) (old / 256) := by
        unfold mix
        rw [hp, Nat.mod_mul, Nat.mul_assoc 256, Nat.div_div_eq_div_mul]
        generalize 256 ^ j = q
        generalize q * (old / (256 * q)) = r
        generalize new / 256 % q = s
        omega
      have e2 : mix (j + 1) new old % 256 = new % 256 := by
        unfold mix
        rw [hp, Nat.mod_mul, Nat.mul_assoc 256]
        omega
      simp only [le, List.take_succ_cons, List.drop_succ_cons, List.cons_append]
      rw [e1, ih]
      congr 1
      apply UInt8.toNat_inj.mp
      simp only [UInt8.toNat_ofNat']
      exact e2

theorem mix_eq (j new old : Nat) (h : 8 ≤ j) (hn : new < 2 ^ 64) (ho : old < 2 ^ 64) : mix j new old = new := by
  have : 256 ^ 8 ≤ 256 ^ j := Nat.pow_le_pow_right (by decide) h
  unfold mix
  rw [Nat.mod_eq_of_lt (by omega), Nat.div_eq_of_lt (by omega)]
  simp

theorem mix_zero (new old : Nat) : mix 0 new old = old := by simp [mix, Nat.mod_one]

theorem mix_same {j new old : Nat} (h : new / 256 ^ j = old / 256 ^ j) : mix j new old = new := by
  unfold mix; rw [← h, Nat.mod_add_div]

theorem mix_lt (j new old : Nat) (hn : new < 2 ^ 64) (ho : old < 2 ^ 64) : mix j new old < 2 ^ 64 := by
  by_cases h : 8 ≤ j
  · rw [mix_eq j new old h hn ho]; exact hn
  · have e : (256 : Nat) ^ 8 = 256 ^ j * 256 ^ (8 - j) := by rw [← Nat.pow_add]; congr 1; omega
    have h2 : old / 256 ^ j < 256 ^ (8 - j) := by
      rw [Nat.div_lt_iff_lt_mul (Nat.pow_pos (by decide)), Nat.mul_comm, ← e]; omega
    have h3 : new % 256 ^ j < 256 ^ j := Nat.mod_lt _ (Nat.pow_pos (by decide))
    have h4 : 256 ^ j * (old / 256 ^ j + 1) ≤ 256 ^ j * 256 ^ (8 - j) := Nat.mul_le_mul_left _ h2
    rw [← e, Nat.mul_add] at h4
    unfold mix
    omega

/-- The mixture is neither of the two unless they agree in the lowest bytes or in the others. -/
theorem mix_ne {j new old : Nat} (h1 : new % 256 ^ j ≠ old % 256 ^ j) (h2 : new / 256 ^ j ≠ old / 256 ^ j) :
    mix j new old ≠ new ∧ mix j new old ≠ old := by
  have hp : 0 < 256 ^ j := Nat.pow_pos (by decide)
  constructor
  · intro h
    apply h2
    have : mix j new old / 256 ^ j = old / 256 ^ j := by
      unfold mix
      rw [Nat.add_mul_div_left _ _ hp, Nat.div_eq_of_lt (Nat.mod_lt _ hp), Nat.zero_add]
    rw [h] at this; exact this
  · intro h
    apply h1
    have : mix j new old % 256 ^ j = new % 256 ^ j := by
      unfold mix
      rw [Nat.add_mul_mod_self_left, Nat.mod_mod]
    rw [h] at this; exact this.symm

/-! ### x86-64 -/

theorem plain_iff {m : Mem} {f : Nat} (h : PlainX86 m f) : X86.Plain m (X86.hasEndbr m f) f := by
  unfold PlainX86 at h
  rw [X86.body_eq, Nat.add_sub_cancel] at h
  refine ⟨fun he => ?_, h⟩
  simpa [X86.hasEndbr] using he

theorem prologue_splice (e : Bool) (g g0 k : Nat) :
    (X86.prologue e g).take k ++ (X86.prologue e g0).drop k = X86.prologue e (mix (k - 6) g g0) := by
  unfold X86.prologue
  rw [List.append_assoc, List.append_assoc, List.append_assoc, splice_left, splice_right _ _ _ (by simp), le_mix]
  rfl

theorem redirected_cut {m : Mem} {e : Bool} {f g g0 : Nat} (h : X86.Redirected m e f g0) (k : Nat) :
    X86.Redirected (m.store (f - 14) ((X86.prologue e g).take k)) e f (mix (k - 6) g g0) := by
  unfold X86.Redirected
  rw [← prologue_splice]
  exact at_splice h (by simp) k

theorem prologue_dvd (e : Bool) (g : Nat) : 2 ∣ (X86.prologue e g).length := by
  rw [X86.prologue_length]; cases e <;> decide

/-! ### POWER -/

theorem ppc_splice (t : List UInt8) (g g0 k : Nat) :
    (Ppc.prologue t g).take k ++ (Ppc.prologue t g0).drop k = Ppc.prologue t (mix (k - t.length) g g0) := by
  unfold Ppc.prologue
  rw [splice_left, le_mix]

end Verif.Torn
