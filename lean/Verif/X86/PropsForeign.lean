import Verif.X86.Props

/-! C31 in general: what happens to a function that begins with a short jump of its own. -/

namespace Verif.X86

open Spec

/-- Negation of **C31** in general: every function that begins with a short jump of its own, to anywhere but the next instruction,
can be patched.  The fourteen bytes in front of it and its jump are lost whatever they were, and unpatching the function does not
bring them back: it then goes on behind the jump rather than where the jump leads. -/
theorem C31_foreign_jump_lost (m : Mem) (f new : Nat) (hf : 14 ≤ f) (hf2 : f + 2 < 2 ^ 64) (h : m f = 0xeb) (hd : m (f + 1) ≠ 0) :
    ∃ a bs a' bs', patchAddr m f new true = .ok (a, bs) ∧ patchAddr (m.store a bs) f 0 false = .ok (a', bs') ∧
      ((m.store a bs).store a' bs').load (f - 14) 14 = [0xff, 0x25, 0, 0, 0, 0] ++ le 8 new ∧
      step ((m.store a bs).store a' bs') f = some (f + 2) ∧
      step m f = some (wrap (f + 2 + signed 8 (m (f + 1)).toNat)) ∧ step m f ≠ some (f + 2) := by
  have hs : step m f = some (wrap (f + 2 + signed 8 (m (f + 1)).toNat)) := step_jmp8 h
  have hr := redirected_store m false f new
  have hh := redirected_endbr hf hr
  have hp := redirected_patchable hf hr
  refine ⟨_, _, f + bias false, [0x66, 0x90], (C31_foreign_jump_accepted m f new h).1, ?_, ?_, ?_, hs, ?_⟩
  · rw [patchAddr_ok hp hh]; rfl
  · rw [load_store_out (by left; simp [bias]; omega)]
    have := load_store (m := m) (a := f - 14) (bytes := prologue false new)
    have h16 : (prologue false new).length = 16 := by simp [bias]
    rw [h16] at this
    have h2 := congrArg (List.take 14) this
    simpa [Mem.load, prologue, List.take_append, ← List.map_take] using h2
  · exact step_nop2 (load_store (bytes := [0x66, 0x90])) hf2
  · rw [hs]
    have hv : (m (f + 1)).toNat < 256 := (m (f + 1)).toNat_lt
    have hz : (m (f + 1)).toNat ≠ 0 := fun h0 => hd (UInt8.toNat_inj.1 (by simpa using h0))
    generalize (m (f + 1)).toNat = v at *
    simp only [wrap, signed, ne_eq, Option.some.injEq]
    split <;> omega

/-- A function that begins with a jump over the next five bytes, behind other code. -/
example := C31_foreign_jump_lost (fun i => if i = 0x1000 then 0xeb else if i = 0x1001 then 5 else 0xcc) 0x1000 0x2000
  (by decide) (by decide) rfl (by decide)

end Verif.X86
