import Verif.X86.Model
import Verif.X86.Spec

namespace Verif.X86

open Spec

theorem hasEndbr_eq (m : Mem) (f) : startsEndbr m f = hasEndbr m f := rfl

theorem body_eq (m : Mem) (f) : body m f = f + bias (hasEndbr m f) + 2 := by
  unfold body bias; rw [hasEndbr_eq]; split <;> omega

@[simp] theorem prologue_length (e new) : (prologue e new).length = 16 + bias e := by
  cases e <;> simp [prologue, bias, endbr64]

theorem wrap_nat {a : Nat} (h : a < 2 ^ 64) : wrap (a : Int) = a := by
  unfold wrap; omega

/-- The entry of `f` is redirected to `g`. -/
def Redirected (m : Mem) (e : Bool) (f g : Nat) : Prop := At m (f - 14) (prologue e g)

/-- The entry of `f` is a 2-byte nop. -/
def Plain (m : Mem) (e : Bool) (f : Nat) : Prop :=
  (e = true → m.load f 4 = endbr64) ∧ (m.load (f + bias e) 2 = [0x66, 0x90] ∨ m.load (f + bias e) 2 = [0x90, 0x90])

theorem hasEndbr_of_byte {m : Mem} {f} (h : m f ≠ 0xf3) : hasEndbr m f = false := by
  simp [hasEndbr, Mem.load, endbr64, h]

theorem redirected_parts {m : Mem} {e f g} (hf : 14 ≤ f) (h : Redirected m e f g) :
    m.load (f - 14) 6 = [0xff, 0x25, 0, 0, 0, 0] ∧ m.load (f - 8) 8 = le 8 g ∧
    (e = true → m.load f 4 = endbr64) ∧ m (f + bias e) = 0xeb ∧
    m (f + bias e + 1) = (if e then 0xec else 0xf0) := by
  unfold Redirected prologue at h
  rw [List.append_assoc, at_append, at_append] at h
  obtain ⟨h1, h2, h3⟩ := h
  simp only [List.length_cons, List.length_nil, le_length] at h1 h2 h3
  rw [show f - 14 + (0 + 1 + 1 + 1 + 1 + 1 + 1) = f - 8 by omega] at h2 h3
  rw [show f - 8 + 8 = f by omega] at h3
  refine ⟨h1, ?_, ?_⟩
  · unfold At at h2; rwa [le_length] at h2
  · cases e with
    | true =>
      simp only [if_true] at h3
      rw [at_append, at_cons, at_cons] at h3
      exact ⟨fun _ => h3.1, h3.2.1, h3.2.2.1⟩
    | false =>
      simp only [Bool.false_eq_true, if_false] at h3
      rw [at_cons, at_cons] at h3
      simpa [bias] using ⟨h3.1, h3.2.1⟩

theorem redirected_endbr {m : Mem} {e f g} (hf : 14 ≤ f) (h : Redirected m e f g) :
    hasEndbr m f = e := by
  obtain ⟨_, _, h3, h4, _⟩ := redirected_parts hf h
  cases e with
  | true => simp [hasEndbr, h3 rfl]
  | false => exact hasEndbr_of_byte (by simp [bias] at h4; simp [h4])

theorem plain_endbr {m : Mem} {e f} (h : Plain m e f) : hasEndbr m f = e := by
  obtain ⟨h1, h2⟩ := h
  cases e with
  | true => simp [hasEndbr, h1 rfl]
  | false =>
    apply hasEndbr_of_byte
    simp [bias, Mem.load] at h2
    rcases h2 with h2 | h2 <;> simp [h2.1]

theorem redirected_patchable {m : Mem} {e f g} (hf : 14 ≤ f) (h : Redirected m e f g) :
    patchable m f = true := by
  have he := redirected_endbr hf h
  obtain ⟨_, _, _, h4, _⟩ := redirected_parts hf h
  simp [patchable, he, h4]

theorem plain_patchable {m : Mem} {e f} (h : Plain m e f) : patchable m f = true := by
  have he := plain_endbr h
  obtain ⟨_, h2⟩ := h
  simp [Mem.load] at h2
  rcases h2 with h2 | h2 <;> simp [patchable, he, h2]

theorem load_two {m : Mem} {a x y} (h1 : m a = x) (h2 : m (a + 1) = y) : m.load a 2 = [x, y] := by
  simp [Mem.load, h1, h2]

/-- Leaving in one step. -/
theorem leave_step {m : Mem} {lo hi fuel pc pc'} (h1 : lo ≤ pc) (h2 : pc < hi)
    (h : step m pc = some pc') : leave m lo hi (fuel + 1) pc = leave m lo hi fuel pc' := by
  rw [leave, if_neg (by omega), h]

theorem leave_out {m : Mem} {lo hi fuel pc} (h : pc < lo ∨ hi ≤ pc) :
    leave m lo hi fuel pc = some pc := by
  cases fuel <;> simp [leave, h]

theorem step_endbr {m : Mem} {pc} (h : m.load pc 4 = endbr64) (hb : pc + 4 < 2 ^ 64) :
    step m pc = some (pc + 4) := by
  unfold step
  rw [if_pos (by simpa [endbr64] using h)]
  have := wrap_nat hb
  simpa using this

theorem load4_ne {m : Mem} {pc} (h : m pc ≠ 0xf3) : m.load pc 4 ≠ [0xf3, 0x0f, 0x1e, 0xfa] := by
  simp [Mem.load, h]

theorem step_nop {m : Mem} {pc} (h : m pc = 0x90) (hb : pc + 1 < 2 ^ 64) :
    step m pc = some (pc + 1) := by
  unfold step
  rw [if_neg (load4_ne (by simp [h])), if_pos h]
  have := wrap_nat hb
  simpa using this

theorem step_nop2 {m : Mem} {pc} (h : m.load pc 2 = [0x66, 0x90]) (hb : pc + 2 < 2 ^ 64) :
    step m pc = some (pc + 2) := by
  have h0 : m pc = 0x66 := by simp [Mem.load] at h; exact h.1
  unfold step
  rw [if_neg (load4_ne (by simp [h0])), if_neg (by simp [h0]), if_pos h]
  have := wrap_nat hb
  simpa using this

theorem step_jmp8 {m : Mem} {pc} (h : m pc = 0xeb) :
    step m pc = some (wrap (pc + 2 + signed 8 (m (pc + 1)).toNat)) := by
  unfold step
  rw [if_neg (load4_ne (by simp [h])), if_neg (by simp [h]), if_neg (by simp [Mem.load, h]), if_pos h]

theorem step_jmpind {m : Mem} {pc g} (h : m.load pc 6 = [0xff, 0x25, 0, 0, 0, 0])
    (hg : m.load (pc + 6) 8 = le 8 g) (hb : pc + 6 < 2 ^ 64) (hgb : g < 2 ^ 64) :
    step m pc = some g := by
  have e1 := load_append m pc 2 4
  rw [h] at e1
  have e2 : m.load pc 2 = [0xff, 0x25] ∧ m.load (pc + 2) 4 = [0, 0, 0, 0] := by
    have := List.append_inj (s₁ := [0xff, 0x25]) (t₁ := [0, 0, 0, 0]) e1 (by simp)
    exact ⟨this.1.symm, this.2.symm⟩
  have h0 : m pc = 0xff := by have := e2.1; simp [Mem.load] at this; exact this.1
  unfold step
  rw [if_neg (load4_ne (by simp [h0])), if_neg (by simp [h0]), if_neg (by simp [Mem.load, h0]),
    if_neg (by simp [h0]), if_pos e2.1, e2.2]
  have hz : signed 32 (leVal [0, 0, 0, 0]) = 0 := by decide
  rw [hz]
  have := wrap_nat hb
  simp only [Int.add_zero]
  rw [show ((pc : Int) + 6) = ((pc + 6 : Nat) : Int) by simp, this, hg, leVal_le_of_lt (by omega)]

theorem callDest_redirected {m : Mem} {e f g} (hf : 14 ≤ f) (hf2 : f + 6 < 2 ^ 64) (hg : g < 2 ^ 64)
    (hout : g < f - 14 ∨ f + bias e + 2 ≤ g) (h : Redirected m e f g) : callDest m f = some g := by
  have he := redirected_endbr hf h
  obtain ⟨h1, h2, h3, h4, h5⟩ := redirected_parts hf h
  unfold callDest
  rw [body_eq, he]
  have hj : step m (f - 14) = some g :=
    step_jmpind h1 (by rw [show f - 14 + 6 = f - 8 by omega]; exact h2) (by omega) hg
  have hb : step m (f + bias e) = some (f - 14) := by
    rw [step_jmp8 h4, h5]
    cases e with
    | true =>
      have : signed 8 (if true then (0xec : UInt8) else 0xf0).toNat = -20 := by decide
      simp only [bias] at this ⊢
      rw [this]
      congr 1
      unfold wrap; simp only [if_true]; omega
    | false =>
      have : signed 8 (if false then (0xec : UInt8) else 0xf0).toNat = -16 := by decide
      simp only [bias] at this ⊢
      rw [this]
      congr 1
      unfold wrap; simp; omega
  cases e with
  | true =>
    have hbias : bias true = 4 := rfl
    rw [hbias] at hb hout ⊢
    rw [leave_step (by omega) (by omega) (step_endbr (h3 rfl) (by omega)),
      leave_step (by omega) (by omega) hb, leave_step (by omega) (by omega) hj, leave_out (by omega)]
  | false =>
    have hbias : bias false = 0 := rfl
    rw [hbias] at hb hout ⊢
    simp only [Nat.add_zero] at hb
    rw [leave_step (by omega) (by omega) hb, leave_step (by omega) (by omega) hj, leave_out (by omega)]

theorem callDest_plain {m : Mem} {e f} (hf : 14 ≤ f) (hf2 : f + 6 < 2 ^ 64) (h : Plain m e f) :
    callDest m f = some (f + bias e + 2) := by
  have he := plain_endbr h
  obtain ⟨h1, h2⟩ := h
  unfold callDest
  rw [body_eq, he]
  have key : ∀ fuel lo hi, lo ≤ f → hi = f + bias e + 2 →
      leave m lo hi (fuel + 2) (f + bias e) = some (f + bias e + 2) := by
    intro fuel lo hi hlo hhi
    have hbe : bias e ≤ 4 := by cases e <;> simp [bias]
    rcases h2 with h2 | h2
    · rw [leave_step (by omega) (by omega) (step_nop2 h2 (by omega)), leave_out (by omega)]
    · have a1 : m (f + bias e) = 0x90 := by simp [Mem.load] at h2; exact h2.1
      have a2 : m (f + bias e + 1) = 0x90 := by simp [Mem.load] at h2; exact h2.2
      rw [leave_step (by omega) (by omega) (step_nop a1 (by omega)),
        leave_step (by omega) (by omega) (step_nop a2 (by omega)), leave_out (by omega)]
  cases e with
  | true =>
    have hbias : bias true = 4 := rfl
    have := key 5 (f - 14) (f + bias true + 2) (by omega) rfl
    rw [hbias] at this ⊢
    rw [leave_step (by omega) (by omega) (step_endbr (h1 rfl) (by omega)), this]
  | false =>
    have hbias : bias false = 0 := rfl
    have := key 6 (f - 14) (f + bias false + 2) (by omega) rfl
    rw [hbias] at this ⊢
    simpa using this

/-- `patchAddr` on a redirected or plain entry. -/
theorem patchAddr_ok {m : Mem} {e f} (hp : patchable m f = true) (he : hasEndbr m f = e) (new en) :
    patchAddr m f new en = .ok (if en then (f - 14, prologue e new) else (f + bias e, [0x66, 0x90])) := by
  unfold patchAddr
  simp only [hp, he, preNops]
  cases en <;> simp

theorem redirected_store (m : Mem) (e f g) :
    Redirected (m.store (f - 14) (prologue e g)) e f g := at_store _ _ _

theorem plain_store {m : Mem} {e f} (h : e = true → m.load f 4 = endbr64) :
    Plain (m.store (f + bias e) [0x66, 0x90]) e f := by
  refine ⟨fun he => ?_, Or.inl (load_store (bytes := [0x66, 0x90]))⟩
  subst he
  have hbias : bias true = 4 := rfl
  rw [load_store_out (by rw [hbias]; left; omega)]
  exact h rfl

theorem redirected_congr {m m' : Mem} {e f g} (hf : 14 ≤ f) (h : ∀ i, f - 14 ≤ i → i < f + bias e + 2 → m i = m' i)
    (hr : Redirected m e f g) : Redirected m' e f g := by
  unfold Redirected at *
  refine (at_congr ?_).mp hr
  intro i h1 h2
  rw [prologue_length] at h2
  exact h i h1 (by omega)

theorem plain_congr {m m' : Mem} {e f} (h : ∀ i, f ≤ i → i < f + bias e + 2 → m i = m' i)
    (hp : Plain m e f) : Plain m' e f := by
  obtain ⟨h1, h2⟩ := hp
  refine ⟨fun he => ?_, ?_⟩
  · subst he
    have hbias : bias true = 4 := rfl
    rw [← load_congr (m := m) (fun i a b => h i a (by omega))]
    exact h1 rfl
  · rw [← load_congr (m := m) (fun i a b => h i (by omega) (by omega))]
    exact h2

end Verif.X86
