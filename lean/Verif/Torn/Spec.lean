import Verif.X86.Spec
import Verif.Power.Spec

/-! What may be seen of a function when the tool ended while changing its entry. -/

namespace Verif.Torn

/-- The tool ends at no request. -/
def never : Nat → Nat → Option Nat := fun _ _ => none

/-- The request at which the tool ends has written a multiple of `d` bytes of its word (mostly none; a word that crosses a
page boundary may be written up to the boundary, which is a multiple of the alignment of functions away). -/
def Aligned (d : Nat) (stop : Nat → Nat → Option Nat) : Prop := ∀ w i j, stop w i = some j → d ∣ j

/-- The request at which the tool ends has written nothing. -/
def Whole (stop : Nat → Nat → Option Nat) : Prop := ∀ w i j, stop w i = some j → j = 0

/-- The address whose lowest `j` bytes are those of `new` and whose other bytes are those of `old`. -/
def mix (j new old : Nat) : Nat := new % 256 ^ j + 256 ^ j * (old / 256 ^ j)

/-- An unpatched function on x86-64: optionally `endbr64`, then `xchg %ax,%ax` or two `nop`. -/
def PlainX86 (m : Mem) (f : Nat) : Prop :=
  m.load (X86.Spec.body m f - 2) 2 = [0x66, 0x90] ∨ m.load (X86.Spec.body m f - 2) 2 = [0x90, 0x90]

/-- An address that calls may be redirected to: not in the entry pad of `f`. -/
def OutX86 (m : Mem) (f g : Nat) : Prop := g < 2 ^ 64 ∧ (g < f - 14 ∨ X86.Spec.body m f ≤ g)

/-- An unpatched function on POWER: it has its NOP, at its start or behind the two instructions that set up its TOC
pointer, the first of which is not a branch 52 bytes backwards. -/
def PlainPpc (m : Mem) (f : Nat) : Prop :=
  m.load (f + Power.Spec.entryOff m f) 4 = [0x00, 0x00, 0x00, 0x60] ∧ m.load f 4 ≠ [0xcc, 0xff, 0xff, 0x4b]

end Verif.Torn
