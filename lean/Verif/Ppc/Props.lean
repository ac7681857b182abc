import Verif.Ppc.Model
import Verif.Ppc.Spec

/-! C46 (branch encoding), C58 (entry on POWER), C59 (refused functions on POWER). -/

namespace Verif.Ppc

open Spec

/-! ### C46 -/

theorem generateBranch_eq (o : Int) (h1 : -2 ^ 24 ≤ o) (h2 : o < 0) :
    generateBranch o = 0x4B * 2 ^ 24 + (o + 2 ^ 24).toNat := by
  have e1 : (o % 2 ^ 32).toNat = (o + 2 ^ 32).toNat := by omega
  have e2 : (o + 2 ^ 32).toNat % 2 ^ 24 = (o + 2 ^ 24).toNat := by omega
  have h3 : (o + 2 ^ 24).toNat < 2 ^ 24 := by omega
  unfold generateBranch
  rw [e1, show (0x00FFFFFF : Nat) = 2 ^ 24 - 1 from rfl, Nat.and_two_pow_sub_one_eq_mod, e2,
    show (0x4B <<< 24 : Nat) = 2 ^ 24 * 0x4B from rfl, Nat.or_comm, ← Nat.two_pow_add_eq_or_of_lt h3]

/-- C46: every negative word-aligned displacement that fits the 24 bits of `generate_branch_to_prologue` becomes a relative
branch by exactly that much, without the absolute and link bits. -/
theorem C46_branch_decodes (o : Int) (h1 : -2 ^ 24 ≤ o) (h2 : o < 0) (h3 : o % 4 = 0) :
    decode (generateBranch o) = some ⟨o, false, false⟩ := by
  rw [generateBranch_eq o h1 h2]
  have h4 : (o + 2 ^ 24).toNat < 2 ^ 24 := by omega
  have h5 : (o + 2 ^ 24).toNat % 4 = 0 := by omega
  have h6 : (((o + 2 ^ 24).toNat : Nat) : Int) = o + 2 ^ 24 := by omega
  generalize (o + 2 ^ 24).toNat = n at h4 h5 h6
  unfold decode
  rw [if_pos (by omega)]
  simp only
  have e1 : (75 * 2 ^ 24 + n) % 2 ^ 26 / 4 * 4 = 3 * 2 ^ 24 + n := by omega
  rw [e1, if_neg (by omega)]
  congr 2
  · omega
  · simp; omega
  · simp; omega

/-- Displacements that are not negative are not encoded: the branch goes backwards all the same. -/
theorem C46_not_for_forward (o : Int) (h1 : 0 ≤ o) (h2 : o < 2 ^ 24) :
    ∃ b, decode (generateBranch o) = some b ∧ b.disp < 0 := by
  have : generateBranch o = generateBranch (o - 2 ^ 24) := by
    unfold generateBranch
    have : (o % 2 ^ 32).toNat % 2 ^ 24 = ((o - 2 ^ 24) % 2 ^ 32).toNat % 2 ^ 24 := by omega
    rw [show (0x00FFFFFF : Nat) = 2 ^ 24 - 1 from rfl, Nat.and_two_pow_sub_one_eq_mod, Nat.and_two_pow_sub_one_eq_mod, this]
  rw [this, generateBranch_eq _ (by omega) (by omega)]
  have h4 : (o - 2 ^ 24 + 2 ^ 24).toNat < 2 ^ 24 := by omega
  generalize (o - 2 ^ 24 + 2 ^ 24).toNat = n at h4
  refine ⟨_, by unfold decode; rw [if_pos (by omega)], ?_⟩
  simp only
  rw [if_neg (by omega)]
  omega

example : decode (generateBranch (-60)) = some ⟨-60, false, false⟩ := C46_branch_decodes _ (by omega) (by omega) (by omega)

/-! ### C58 -/

theorem branchBytes_word (off : Nat) (h : off ≤ 2 ^ 16) :
    leVal (branchBytes off) = generateBranch (withOffset off) := by
  unfold branchBytes
  apply leVal_le_of_lt
  rw [generateBranch_eq _ (by unfold withOffset preLen; omega) (by unfold withOffset preLen; omega)]
  have : (withOffset off + 2 ^ 24).toNat < 2 ^ 24 := by unfold withOffset preLen; omega
  omega

theorem branch_ne_nop (off : Nat) (h : off = 0 ∨ off = 8) : branchBytes off ≠ nop := by
  rcases h with rfl | rfl <;> decide

theorem offset_cases {m : Mem} {f off : Nat} (h : getBranchOffset m f = some off) : off = 0 ∨ off = 8 := by
  unfold getBranchOffset at h
  split at h
  · exact .inl (Option.some.inj h).symm
  · split at h
    · exact .inr (Option.some.inj h).symm
    · cases h

/-- The bytes at the place of the NOP. -/
theorem offset_bytes {m : Mem} {f off : Nat} (h : getBranchOffset m f = some off) :
    m.load (f + off) 4 = nop ∨ m.load (f + off) 4 = branchBytes off := by
  unfold getBranchOffset at h
  split at h
  · rename_i hc; cases h; exact hc
  · split at h
    · rename_i hc; cases h; exact hc
    · cases h

/-- Changing the bytes at the place of the NOP to a NOP or the branch leaves the place where it is. -/
theorem offset_stable {m m' : Mem} {f off : Nat} (h : getBranchOffset m f = some off)
    (h1 : m'.load (f + off) 4 = nop ∨ m'.load (f + off) 4 = branchBytes off)
    (h2 : ∀ i, f ≤ i → (i < f + off ∨ f + off + 4 ≤ i) → m' i = m i) : getBranchOffset m' f = some off := by
  unfold getBranchOffset at h ⊢
  by_cases hc : m.load f 4 = nop ∨ m.load f 4 = branchBytes 0
  · rw [if_pos hc] at h; cases h
    exact if_pos (by simpa using h1)
  · rw [if_neg hc] at h
    by_cases hc2 : m.load (f + 8) 4 = nop ∨ m.load (f + 8) 4 = branchBytes 8
    · rw [if_pos hc2] at h; cases h
      have e : m'.load f 4 = m.load f 4 := load_congr (fun i hi hj => h2 i hi (by omega))
      rw [e, if_neg hc, if_pos h1]
    · rw [if_neg hc2] at h; cases h

theorem branch_length (off : Nat) : (branchBytes off).length = 4 := by unfold branchBytes; simp

/-- The memory after activating. -/
theorem perform_enable {template : List UInt8} {m : Mem} {f new off : Nat} (h : getBranchOffset m f = some off) :
    (patchAddr template m f new true).1 = 0 ∧ perform m (patchAddr template m f new true).2
      = (m.store (f - preLen) (prologue template new)).store (f + off) (branchBytes off) := by
  simp [patchAddr, h, perform]

theorem perform_disable {template : List UInt8} {m : Mem} {f new off : Nat} (h : getBranchOffset m f = some off) :
    (patchAddr template m f new false).1 = 0 ∧ perform m (patchAddr template m f new false).2
      = m.store (f + off) nop := by
  simp [patchAddr, h, perform]

/-- C58, activation: for a function with its NOP at the entry or behind the global entry code, whether it is active
already or not, the NOP becomes a branch to the prologue, which is written with the new address; nothing else changes, and
the function stays one that can be patched. -/
theorem C58_activate (template : List UInt8) (ht : template.length = 44) (m : Mem) (f new off : Nat) (hf : 52 ≤ f)
    (h : getBranchOffset m f = some off) :
    let m' := perform m (patchAddr template m f new true).2
    (patchAddr template m f new true).1 = 0
      ∧ Spec.step m' (f + off) = some ((f : Int) - 52)
      ∧ m'.load (f - 52) 44 = template ∧ m'.load (f - 8) 8 = le 8 new
      ∧ (∀ i, (i < f - 52 ∨ f ≤ i) → (i < f + off ∨ f + off + 4 ≤ i) → m' i = m i)
      ∧ getBranchOffset m' f = some off := by
  obtain ⟨e1, e2⟩ := perform_enable (template := template) (new := new) h
  simp only
  rw [e1, e2]
  have hoff := offset_cases h
  have hpl : (prologue template new).length = 52 := by simp [prologue, ht]
  have hb : ((m.store (f - preLen) (prologue template new)).store (f + off) (branchBytes off)).load (f + off) 4
      = branchBytes off := by
    have := load_store (m := m.store (f - preLen) (prologue template new)) (a := f + off) (bytes := branchBytes off)
    rwa [branch_length] at this
  have frame : ∀ i, (i < f - 52 ∨ f ≤ i) → (i < f + off ∨ f + off + 4 ≤ i) →
      ((m.store (f - preLen) (prologue template new)).store (f + off) (branchBytes off)) i = m i := by
    intro i h1 h2
    rw [store_out (by rw [branch_length]; omega), store_out (by rw [hpl]; unfold preLen; omega)]
  have pro : At ((m.store (f - preLen) (prologue template new)).store (f + off) (branchBytes off)) (f - 52)
      (prologue template new) := by
    rw [at_congr (m' := m.store (f - preLen) (prologue template new))]
    · exact at_store _ _ _
    · intro i h1 h2
      exact store_out (by rw [hpl] at h2; omega)
  rw [prologue, at_append] at pro
  refine ⟨rfl, ?_, ?_, ?_, frame, ?_⟩
  · unfold Spec.step
    rw [hb, show ([0x00, 0x00, 0x00, 0x60] : List UInt8) = nop from rfl, if_neg (branch_ne_nop off hoff), branchBytes_word off (by omega),
      C46_branch_decodes _ (by unfold withOffset preLen; omega) (by unfold withOffset preLen; omega)
        (by unfold withOffset preLen; omega)]
    simp only [Option.some.injEq]
    unfold withOffset preLen; omega
  · have := pro.1; unfold At at this; rwa [ht] at this
  · have := pro.2
    unfold At at this
    rw [ht, show f - 52 + 44 = f - 8 by omega, le_length] at this
    exact this
  · exact offset_stable h (.inr hb) (fun i h1 h2 => frame i (.inr h1) h2)

/-- C58, deactivation: the NOP is back, so that calls run the original function; nothing else changes. -/
theorem C58_deactivate (template : List UInt8) (m : Mem) (f new off : Nat) (h : getBranchOffset m f = some off) :
    let m' := perform m (patchAddr template m f new false).2
    (patchAddr template m f new false).1 = 0
      ∧ Spec.step m' (f + off) = some ((f : Int) + off + 4)
      ∧ (∀ i, (i < f + off ∨ f + off + 4 ≤ i) → m' i = m i)
      ∧ getBranchOffset m' f = some off := by
  obtain ⟨e1, e2⟩ := perform_disable (template := template) (new := new) h
  simp only
  rw [e1, e2]
  have hb : (m.store (f + off) nop).load (f + off) 4 = nop := load_store (m := m) (a := f + off) (bytes := nop)
  have frame : ∀ i, (i < f + off ∨ f + off + 4 ≤ i) → (m.store (f + off) nop) i = m i := by
    intro i h1; exact store_out (by simpa [nop] using h1)
  refine ⟨rfl, ?_, frame, offset_stable h (.inl hb) (fun i _ h2 => frame i h2)⟩
  unfold Spec.step
  rw [hb, show ([0x00, 0x00, 0x00, 0x60] : List UInt8) = nop from rfl, if_pos rfl]
  simp

/-- Any sequence of activations and deactivations. -/
def performAll (template : List UInt8) (f : Nat) (m : Mem) (ops : List (Nat × Bool)) : Mem :=
  ops.foldl (fun m op => perform m (patchAddr template m f op.1 op.2).2) m

/-- C58, round trip: after any number of activations and deactivations of an unpatched function, the last of which is a
deactivation, all bytes from the function's address on are as at the beginning, and so are those before the prologue. -/
theorem C58_round_trip (template : List UInt8) (ht : template.length = 44) (m : Mem) (f off : Nat) (hf : 52 ≤ f)
    (h : getBranchOffset m f = some off) (hn : m.load (f + off) 4 = nop) (ops : List (Nat × Bool)) (new : Nat) :
    ∀ i, (i < f - 52 ∨ f ≤ i) → performAll template f m (ops ++ [(new, false)]) i = m i := by
  have inv : ∀ (ops : List (Nat × Bool)) (m0 : Mem), getBranchOffset m0 f = some off →
      getBranchOffset (performAll template f m0 ops) f = some off
      ∧ ∀ i, (i < f - 52 ∨ f ≤ i) → (i < f + off ∨ f + off + 4 ≤ i) → performAll template f m0 ops i = m0 i := by
    intro ops
    induction ops with
    | nil => exact fun m0 h => ⟨h, fun _ _ _ => rfl⟩
    | cons op ops ih =>
      intro m0 h0
      obtain ⟨g, en⟩ := op
      simp only [performAll, List.foldl_cons]
      cases en with
      | true =>
        obtain ⟨-, -, -, -, k1, k2⟩ := C58_activate template ht _ f g off hf h0
        obtain ⟨j1, j2⟩ := ih _ k2
        exact ⟨j1, fun i h1 h2 => (j2 i h1 h2).trans (k1 i h1 h2)⟩
      | false =>
        obtain ⟨-, -, k1, k2⟩ := C58_deactivate template _ f g off h0
        obtain ⟨j1, j2⟩ := ih _ k2
        exact ⟨j1, fun i h1 h2 => (j2 i h1 h2).trans (k1 i h2)⟩
  intro i hi
  obtain ⟨i1, i2⟩ := inv ops m h
  have e : performAll template f m (ops ++ [(new, false)])
      = perform (performAll template f m ops) (patchAddr template (performAll template f m ops) f new false).2 := by
    simp [performAll]
  rw [e, (perform_disable i1).2]
  by_cases hin : f + off ≤ i ∧ i < f + off + 4
  · have hs : ∀ k, k < 4 → ((performAll template f m ops).store (f + off) nop) (f + off + k) = m (f + off + k) := by
      intro k hk
      have e1 : ((performAll template f m ops).store (f + off) nop).load (f + off) 4 = m.load (f + off) 4 := by
        rw [hn]; exact load_store (bytes := nop)
      have e2 := load_getElem ((performAll template f m ops).store (f + off) nop) (f + off) 4 k (by simpa using hk)
      have e3 := load_getElem m (f + off) 4 k (by simpa using hk)
      rw [← e2, ← e3]
      simp only [e1]
    have := hs (i - (f + off)) (by omega)
    rwa [show f + off + (i - (f + off)) = i by omega] at this
  · rw [store_out (by simp only [nop, List.length_cons, List.length_nil]; omega)]
    exact i2 i hi (by omega)

/-- A function with global entry code: two instructions, then the NOP. -/
def demoMem : Mem := fun i => if i = 0x1000b then 0x60 else if i = 0x10003 then 0x3c else if i < 0x10000 then 0x60 else 0

example : getBranchOffset demoMem 0x10000 = some 8 ∧ demoMem.load 0x10008 4 = nop := by decide +kernel

/-! ### C59 -/

/-- C59, deactivation and functions accepted: a refused deactivation writes nothing.  Missing, and false (see below):
a refused activation. -/
theorem C59_refused_deactivation_partial (template : List UInt8) (m : Mem) (f new : Nat)
    (h : getBranchOffset m f = none) :
    (patchAddr template m f new false) = (ENOPATCHABLE, []) := by
  simp [patchAddr, h]

/-- The negation for activations: a function that cannot be patched is refused, but the 52 bytes before it, which belong to
something else then, are overwritten by the prologue. -/
theorem C59_refused_activation_overwrites (template : List UInt8) (ht : template.length = 44) (m : Mem) (f new : Nat)
    (h : getBranchOffset m f = none) :
    (patchAddr template m f new true).1 = ENOPATCHABLE
      ∧ (perform m (patchAddr template m f new true).2).load (f - 52) 52 = template ++ le 8 new := by
  simp only [patchAddr, h, if_true, perform, List.foldl_cons, List.foldl_nil, true_and]
  have := load_store (m := m) (a := f - preLen) (bytes := prologue template new)
  have hl : (prologue template new).length = 52 := by simp [prologue, ht]
  rw [hl] at this
  exact this

/-- And not all functions that cannot be patched are refused: any NOP as the first or third instruction will do. -/
theorem C59_any_nop_accepted (template : List UInt8) (m : Mem) (f new : Nat)
    (h : m.load (f + 8) 4 = nop) (en : Bool) : (patchAddr template m f new en).1 = 0 := by
  have : ∃ off, getBranchOffset m f = some off := by
    unfold getBranchOffset
    by_cases hc : m.load f 4 = nop ∨ m.load f 4 = branchBytes 0
    · rw [if_pos hc]; exact ⟨_, rfl⟩
    · rw [if_neg hc, if_pos (.inl h)]; exact ⟨_, rfl⟩
  obtain ⟨off, ho⟩ := this
  cases en <;> simp [patchAddr, ho]

/-- A function that begins with `mflr r0`, which is refused. -/
example : getBranchOffset (fun i => if i = 0x10003 then 0x7c else 0) 0x10000 = none := by decide +kernel

/-! ### Further concrete cases -/

example := C46_not_for_forward 60 (by decide) (by decide)
example := C58_activate (List.replicate 44 7) (by decide) demoMem 0x10000 0x7fff1234 8 (by decide) (by decide +kernel)
example := C58_deactivate (List.replicate 44 7) demoMem 0x10000 0x7fff1234 8 (by decide +kernel)
example := C58_round_trip (List.replicate 44 7) (by decide) demoMem 0x10000 8 (by decide) (by decide +kernel) (by decide +kernel)
  [(0x7fff1234, true), (0, false), (0x7fff5678, true)] 0
example := C59_refused_deactivation_partial (List.replicate 44 7) (fun i => if i = 0x10003 then 0x7c else 0) 0x10000 0x2000 (by decide +kernel)
example := C59_refused_activation_overwrites (List.replicate 44 7) (by decide) (fun i => if i = 0x10003 then 0x7c else 0) 0x10000 0x2000
  (by decide +kernel)
example := C59_any_nop_accepted (List.replicate 44 7) demoMem 0x10000 0x2000 (by decide +kernel) true

end Verif.Ppc
