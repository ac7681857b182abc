import Verif.Alloc.Model

/-! C45: the emulated aligned allocation functions. -/

namespace Verif.Alloc

theorem and_pred (x : BitVec 64) (h : x ≠ 0#64) : (x &&& (x - 1)) = 0#64 ↔ ∃ k, x.toNat = 2 ^ k := by
  have h0 : x.toNat ≠ 0 := fun c => h (by apply BitVec.eq_of_toNat_eq; simpa using c)
  have := x.isLt
  have e : (x - 1).toNat = x.toNat - 1 := by
    rw [BitVec.toNat_sub]; simp; omega
  rw [← Nat.isPowerOfTwo, ← Nat.and_sub_one_eq_zero_iff_isPowerOfTwo h0]
  constructor
  · intro hx
    have := congrArg BitVec.toNat hx
    rw [BitVec.toNat_and, e] at this
    simpa using this
  · intro hx
    apply BitVec.eq_of_toNat_eq
    rw [BitVec.toNat_and, e]
    simpa using hx

theorem and_mask (s a : BitVec 64) {k : Nat} (h : a.toNat = 2 ^ k) : (s &&& (a - 1)) = 0#64 ↔ a.toNat ∣ s.toNat := by
  have hp : 0 < 2 ^ k := Nat.two_pow_pos k
  have := a.isLt
  have e : (a - 1).toNat = 2 ^ k - 1 := by
    rw [BitVec.toNat_sub]; simp; omega
  rw [h, Nat.dvd_iff_mod_eq_zero]
  constructor
  · intro hx
    have := congrArg BitVec.toNat hx
    rw [BitVec.toNat_and, e, Nat.and_two_pow_sub_one_eq_mod] at this
    simpa using this
  · intro hx
    apply BitVec.eq_of_toNat_eq
    rw [BitVec.toNat_and, e, Nat.and_two_pow_sub_one_eq_mod]
    simpa using hx

/-- The alignments POSIX allows: powers of two that are multiples of the size of a pointer. -/
def PosixAlignment (a : Nat) : Prop := (∃ k, a = 2 ^ k) ∧ 8 ∣ a

/-- C45, `posix_memalign`: the alignments POSIX allows are passed to the allocator, with its result stored, or `ENOMEM`; all
others give `EINVAL` and store nothing. -/
theorem C45_posix_memalign (memalign : BitVec 64 → BitVec 64 → Option Nat) (a s : BitVec 64) :
    (PosixAlignment a.toNat → (∀ p, memalign a s = some p → posixMemalign memalign a s = (0, some p))
      ∧ (memalign a s = none → posixMemalign memalign a s = (ENOMEM, none)))
    ∧ (¬ PosixAlignment a.toNat → posixMemalign memalign a s = (EINVAL, none)) := by
  have key : (a % 8#64 ≠ 0#64 ∨ powerof2 (a / 8#64) = false ∨ a = 0#64) ↔ ¬ PosixAlignment a.toNat := by
    have hmod : a % 8#64 = 0#64 ↔ 8 ∣ a.toNat := by
      rw [Nat.dvd_iff_mod_eq_zero]
      constructor
      · intro h; have := congrArg BitVec.toNat h; simpa using this
      · intro h; apply BitVec.eq_of_toNat_eq; simpa using h
    by_cases h8 : 8 ∣ a.toNat
    · by_cases h0 : a = 0#64
      · subst h0
        simp only [or_true, true_iff]
        rintro ⟨⟨k, hk⟩, -⟩
        have := Nat.two_pow_pos k
        simp at hk; omega
      · have hn : a.toNat ≠ 0 := fun c => h0 (by apply BitVec.eq_of_toNat_eq; simpa using c)
        obtain ⟨q, hq⟩ := h8
        have hd : a / 8#64 ≠ 0#64 := by
          intro c
          have := congrArg BitVec.toNat c
          simp [BitVec.toNat_udiv] at this; omega
        have hdn : (a / 8#64).toNat = q := by simp [BitVec.toNat_udiv]; omega
        have hp : powerof2 (a / 8#64) = true ↔ ∃ k, q = 2 ^ k := by
          unfold powerof2
          rw [beq_iff_eq, BitVec.and_comm, and_pred _ hd, hdn]
        have hpow : (∃ k, q = 2 ^ k) ↔ ∃ k, a.toNat = 2 ^ k := by
          constructor
          · rintro ⟨k, rfl⟩; exact ⟨k + 3, by rw [hq, Nat.pow_add]; omega⟩
          · rintro ⟨k, hk⟩
            rcases k with _ | _ | _ | k
            · omega
            · omega
            · omega
            · exact ⟨k, by
                have : 2 ^ (k + 1 + 1 + 1) = 8 * 2 ^ k := by
                  rw [Nat.pow_succ, Nat.pow_succ, Nat.pow_succ]; omega
                omega⟩
        have h8 : 8 ∣ a.toNat := ⟨q, hq⟩
        have hnot : ¬ (a % 8#64 ≠ 0#64) := fun c => c (hmod.2 h8)
        constructor
        · rintro (h | h | h)
          · exact absurd h hnot
          · rintro ⟨hk, -⟩
            rw [hp.2 (hpow.2 hk)] at h; cases h
          · exact absurd h h0
        · intro h
          right; left
          cases hb : powerof2 (a / 8#64) with
          | false => rfl
          | true => exact absurd ⟨hpow.1 (hp.1 hb), h8⟩ h
    · constructor
      · intro _ h; exact h8 h.2
      · intro _; left; intro c; exact h8 (hmod.1 c)
  unfold posixMemalign
  constructor
  · intro h
    rw [if_neg (fun c => key.1 c h)]
    exact ⟨fun p hp => by rw [hp], fun hn => by rw [hn]⟩
  · intro h
    rw [if_pos (key.2 h)]

/-- C45, `aligned_alloc`, for any alignment but 0: passed to the allocator exactly when the alignment is a power of two and
the size a multiple of it, else `EINVAL`.  Missing, and false (see below): alignment 0. -/
theorem C45_aligned_alloc_partial (memalign : BitVec 64 → BitVec 64 → Option Nat) (a s : BitVec 64) (h0 : a ≠ 0#64) :
    ((∃ k, a.toNat = 2 ^ k) ∧ a.toNat ∣ s.toNat → alignedAlloc memalign a s = ⟨memalign a s, none⟩)
    ∧ (¬ ((∃ k, a.toNat = 2 ^ k) ∧ a.toNat ∣ s.toNat) → alignedAlloc memalign a s = ⟨none, some EINVAL⟩) := by
  unfold alignedAlloc
  constructor
  · rintro ⟨⟨k, hk⟩, hd⟩
    rw [if_neg]
    rintro (h | h)
    · exact h ((and_pred a h0).2 ⟨k, hk⟩)
    · exact h ((and_mask s a hk).2 hd)
  · intro h
    rw [if_pos]
    by_cases hp : (a &&& (a - 1)) = 0#64
    · right
      intro hm
      obtain ⟨k, hk⟩ := (and_pred a h0).1 hp
      exact h ⟨⟨k, hk⟩, (and_mask s a hk).1 hm⟩
    · exact .inl hp

/-- Alignment 0, which is no power of two, is accepted for size 0 and only for it. -/
theorem C45_aligned_alloc_zero (memalign : BitVec 64 → BitVec 64 → Option Nat) (s : BitVec 64) :
    alignedAlloc memalign 0 s = if s = 0#64 then ⟨memalign 0 0, none⟩ else ⟨none, some EINVAL⟩ := by
  unfold alignedAlloc
  have e : (0#64 - 1) = BitVec.allOnes 64 := by decide
  by_cases h : s = 0#64
  · subst h; simp
  · rw [if_neg h, if_pos]
    right
    show s &&& (0#64 - 1) ≠ 0#64
    rw [e, BitVec.and_allOnes]; exact h

example : PosixAlignment 64 := ⟨⟨6, rfl⟩, by decide⟩
example : ¬ PosixAlignment 24 := by
  rintro ⟨⟨k, hk⟩, -⟩
  rcases k with _ | _ | _ | _ | _ | k <;> try omega
example : posixMemalign (fun a _ => some a.toNat) 64 100 = (0, some 64) := by decide +kernel
example : posixMemalign (fun a _ => some a.toNat) 4 100 = (EINVAL, none) := by decide +kernel
example : alignedAlloc (fun a _ => some a.toNat) 32 96 = ⟨some 32, none⟩ := by decide +kernel
example : alignedAlloc (fun a _ => some a.toNat) 32 100 = ⟨none, some EINVAL⟩ := by decide +kernel

example := C45_posix_memalign (fun a _ => some a.toNat) 64 100
example := C45_aligned_alloc_partial (fun a _ => some a.toNat) 32 96 (by decide)
example := C45_aligned_alloc_zero (fun a _ => some a.toNat) 96

end Verif.Alloc
