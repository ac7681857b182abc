import Verif.Base.Mem

/-!
The few x86-64 instructions that occur in function entry pads, from the Intel SDM: `endbr64`, `nop`,
`xchg %ax,%ax` (66 90), `jmp rel8` and `jmp *disp32(%rip)`.
-/

namespace Verif.X86.Spec

/-- Two's complement value of an unsigned `v < 2^bits`. -/
def signed (bits v : Nat) : Int := if v < 2 ^ (bits - 1) then v else (v : Int) - 2 ^ bits

/-- Address arithmetic wraps at 64 bits. -/
def wrap (a : Int) : Nat := (a % 2 ^ 64).toNat

/-- One instruction; `none` for anything else. -/
def step (m : Mem) (pc : Nat) : Option Nat :=
  if m.load pc 4 = [0xf3, 0x0f, 0x1e, 0xfa] then some (wrap (pc + 4))
  else if m pc = 0x90 then some (wrap (pc + 1))
  else if m.load pc 2 = [0x66, 0x90] then some (wrap (pc + 2))
  else if m pc = 0xeb then some (wrap (pc + 2 + signed 8 (m (pc + 1)).toNat))
  else if m.load pc 2 = [0xff, 0x25] then
    some (leVal (m.load (wrap (pc + 6 + signed 32 (leVal (m.load (pc + 2) 4)))) 8))
  else none

/-- Run while the program counter stays in `[lo, hi)`; the first address outside, if reached. -/
def leave (m : Mem) (lo hi : Nat) : (fuel pc : Nat) → Option Nat
  | 0, pc => if pc < lo ∨ hi ≤ pc then some pc else none
  | fuel + 1, pc => if pc < lo ∨ hi ≤ pc then some pc else
    match step m pc with
    | none => none
    | some pc' => leave m lo hi fuel pc'

/-- Whether a function starts with `endbr64`. -/
def startsEndbr (m : Mem) (f : Nat) : Bool := m.load f 4 == [0xf3, 0x0f, 0x1e, 0xfa]

/-- First byte after the entry pad of the function at `f`: two bytes after the optional `endbr64`.
The pad proper also has 14 bytes in front of the function. -/
def body (m : Mem) (f : Nat) : Nat := f + 2 + if startsEndbr m f then 4 else 0

/-- Where a call of `f` ends up after leaving the entry pad. -/
def callDest (m : Mem) (f : Nat) : Option Nat := leave m (f - 14) (body m f) 8 f

end Verif.X86.Spec
