import Verif.X86.Lemmas

/-! Properties C31 and C32: patching of x86-64 function entries. -/

namespace Verif.X86

open Spec

/-- **C32** (enabling) Whenever `ulp_patch_addr` accepts, a call of the function goes to exactly the
64-bit replacement address, and nothing outside of the entry pad changes. -/
theorem C32_entry_redirects (m : Mem) (f g a : Nat) (bs : List UInt8) (hf : 14 ≤ f)
    (hf2 : f + 6 < 2 ^ 64) (hg : g < 2 ^ 64) (hout : g < f - 14 ∨ body m f ≤ g)
    (h : patchAddr m f g true = .ok (a, bs)) :
    callDest (m.store a bs) f = some g ∧ body (m.store a bs) f = body m f ∧
    ∀ i, i < f - 14 ∨ body m f ≤ i → m.store a bs i = m i := by
  rw [body_eq m f] at *
  have hp : patchable m f = true := by
    unfold patchAddr at h
    cases hp : patchable m f <;> simp_all
  rw [patchAddr_ok hp rfl, if_pos rfl] at h
  injection h with h
  obtain ⟨rfl, rfl⟩ := Prod.mk.inj h
  have hr := redirected_store m (hasEndbr m f) f g
  refine ⟨callDest_redirected hf hf2 hg hout hr, ?_, ?_⟩
  · rw [body_eq, redirected_endbr hf hr]
  · intro i hi
    apply store_out
    rw [prologue_length]
    omega

/-- **C32** (disabling) After disabling, a call falls through to the original body, and only the two
bytes in front of it have changed. -/
theorem C32_disabled_falls_through (m : Mem) (f g a : Nat) (bs : List UInt8) (hf : 14 ≤ f)
    (hf2 : f + 6 < 2 ^ 64) (h : patchAddr m f g false = .ok (a, bs)) :
    callDest (m.store a bs) f = some (body m f) ∧
    ∀ i, i < body m f - 2 ∨ body m f ≤ i → m.store a bs i = m i := by
  rw [body_eq m f] at *
  have hp : patchable m f = true := by
    unfold patchAddr at h
    cases hp : patchable m f <;> simp_all
  rw [patchAddr_ok hp rfl, if_neg (by simp)] at h
  injection h with h
  obtain ⟨rfl, rfl⟩ := Prod.mk.inj h
  have hr := plain_store (m := m) (e := hasEndbr m f) (f := f)
    (by intro h; simpa [hasEndbr] using h)
  refine ⟨callDest_plain hf hf2 hr, ?_⟩
  intro i hi
  apply store_out
  simp only [List.length_cons, List.length_nil]
  omega

/-- Code of the examples: 14 nops, `endbr64`, `nop; nop`, `ret` at 0x1000. -/
def demoMem : Mem :=
  fun i => if i = 0x1000 then 0xf3 else if i = 0x1001 then 0x0f else if i = 0x1002 then 0x1e
    else if i = 0x1003 then 0xfa else if i = 0x1006 then 0xc3 else 0x90

example : callDest demoMem 0x1000 = some 0x1006 := by decide

example : ∃ a bs, patchAddr demoMem 0x1000 0x7fff12345678 true = .ok (a, bs) ∧
    callDest (demoMem.store a bs) 0x1000 = some 0x7fff12345678 :=
  ⟨_, _, rfl, (C32_entry_redirects demoMem 0x1000 0x7fff12345678 _ _ (by decide) (by decide)
    (by decide) (by decide) rfl).1⟩

example : ∃ a bs, patchAddr demoMem 0x1000 0 false = .ok (a, bs) ∧
    callDest (demoMem.store a bs) 0x1000 = some 0x1006 :=
  ⟨_, _, rfl, (C32_disabled_falls_through demoMem 0x1000 0 _ _ (by decide) (by decide) rfl).1⟩

/-! ### C31 -/

/-- The entry of `f` (after an optional `endbr64`) is a pad that libpulp may patch: two one-byte
nops, a two-byte nop, or libpulp's own jump back to an indirect jump in front of the function. -/
def isPad (m : Mem) (f : Nat) : Prop :=
  let a := body m f - 2
  m.load a 2 = [0x90, 0x90] ∨ m.load a 2 = [0x66, 0x90] ∨
    (m a = 0xeb ∧ wrap (a + 2 + signed 8 (m (a + 1)).toNat) = f - 14 ∧ m.load (f - 14) 2 = [0xff, 0x25])

/-- **C31**, the part that is true: a function whose entry is not a pad is refused with ENOPATCHABLE
and nothing is written, provided its first instruction is not some other short jump.  Missing: short
jumps of the function itself, for which the claim is false, see `C31_foreign_jump_accepted`. -/
theorem C31_non_patchable_refused_partial (m : Mem) (f new : Nat) (en : Bool) (h : ¬ isPad m f)
    (hj : m (body m f - 2) ≠ 0xeb) : patchAddr m f new en = .error ENOPATCHABLE := by
  have ha : body m f - 2 = f + bias (hasEndbr m f) := by rw [body_eq]; omega
  unfold isPad at h
  simp only [ha, Mem.load] at h hj
  unfold patchAddr
  have : patchable m f = false := by
    unfold patchable
    generalize f + bias (hasEndbr m f) = a at *
    simp at h hj ⊢
    grind
  simp [this]

example : patchAddr (fun i => if i = 0x1000 then 0x55 else 0x90) 0x1000 0x2000 true = .error ENOPATCHABLE :=
  C31_non_patchable_refused_partial _ _ _ _ (by unfold isPad; decide) (by decide)

/-- Negation of **C31**: a function starting with any short jump, wherever it goes and whatever is in
front of the function, is accepted (lib/arch/x86_64/patch.c:141 only tests the opcode). -/
theorem C31_foreign_jump_accepted (m : Mem) (f new : Nat) (h : m f = 0xeb) :
    patchAddr m f new true = .ok (f - 14, prologue false new) ∧
    patchAddr m f new false = .ok (f, [0x66, 0x90]) := by
  have he : hasEndbr m f = false := hasEndbr_of_byte (by simp [h])
  have hp : patchable m f = true := by simp [patchable, he, bias, h]
  constructor
  · rw [patchAddr_ok hp he]; rfl
  · rw [patchAddr_ok hp he]; rfl

/-- Concrete case: `f` starts with `jmp .+5`, has other code in front of it, and is no pad; patching
and unpatching it overwrites both, so that calls no longer go where they went. -/
theorem C31_foreign_jump_destroyed :
    let m : Mem := fun i => if i = 0x1000 then 0xeb else if i = 0x1001 then 5 else 0xcc
    ¬ isPad m 0x1000 ∧ step m 0x1000 = some 0x1007 ∧
    ∃ a bs a' bs', patchAddr m 0x1000 0x2000 true = .ok (a, bs) ∧
      patchAddr (m.store a bs) 0x1000 0 false = .ok (a', bs') ∧
      step ((m.store a bs).store a' bs') 0x1000 = some 0x1002 ∧ (m.store a bs) 0xff2 = 0xff := by
  refine ⟨by unfold isPad; decide, by decide, _, _, _, _, rfl, rfl, by decide, by decide⟩

/-- A function of which the first instruction is a short jump of its own, to 0x1012. -/
example := C31_foreign_jump_accepted (fun i => if i = 0x1000 then 0xeb else if i = 0x1001 then 0x10 else 0xcc) 0x1000 0x2000 rfl

end Verif.X86
