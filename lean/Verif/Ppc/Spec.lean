import Verif.Base.Mem

/-! The branch instruction of the Power ISA (I-form). -/

namespace Verif.Ppc.Spec

/-- A decoded `b`: displacement, and the bits for an absolute address and for setting the link register. -/
structure Branch where
  disp : Int
  aa : Bool
  lk : Bool
deriving DecidableEq, Repr

/-- Opcode 18 in bits 0-5, LI in bits 6-29 (the displacement is LI followed by two zeros, sign-extended), AA, LK. -/
def decode (w : Nat) : Option Branch :=
  if w / 2 ^ 26 = 18 then
    let d : Nat := w % 2 ^ 26 / 4 * 4
    some ⟨if d < 2 ^ 25 then (d : Int) else (d : Int) - 2 ^ 26, w / 2 % 2 = 1, w % 2 = 1⟩
  else none

/-- One instruction at `pc`: a NOP (`ori 0,0,0`) or a relative branch without link; `none` for all others. -/
def step (m : Mem) (pc : Nat) : Option Int :=
  if m.load pc 4 = [0x00, 0x00, 0x00, 0x60] then some (pc + 4)
  else match decode (leVal (m.load pc 4)) with
    | some ⟨d, false, false⟩ => some (pc + d)
    | _ => none

end Verif.Ppc.Spec
