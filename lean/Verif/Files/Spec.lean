import Verif.Files.Model

/-!
What a user expects of `ulp livepatchable` and `ulp post`.
-/

namespace Verif.Files

/-- Some section of the file, not counting the null section, has that name. -/
def Has (f : File) (name : Str) : Prop :=
  match f with
  | .other => False
  | .elf _ _ secs _ => ∃ s ∈ secs.tail, s.name = some name

/-- Every section has a name. -/
def File.Named : File → Prop
  | .other => False
  | .elf _ strtab secs _ => strtab = true ∧ ∀ s ∈ secs, s.name ≠ none

/-- An ELF file of 64 bits. -/
def File.Wide : File → Prop
  | .other => False
  | .elf wide _ _ _ => wide = true

/-- The names of the sections. -/
def File.names : File → List (Option Str)
  | .other => []
  | .elf _ _ secs _ => secs.map (·.name)

/-- The words of a table. -/
def words (d : List UInt8) : (n : Nat) → List Nat
  | 0 => []
  | n + 1 => leVal (d.take 8) :: words (d.drop 8) n

/-- Byte `o` of section `s` belongs to the first NOP of a function listed in the table `es`: the two NOPs are 14 bytes after the
listed address, behind an `endbr64` if there is one. -/
def FirstNop (es : List Nat) (s : Sec) (o : Nat) : Prop :=
  s.data[o]? = some 0x90 ∧ s.data[o + 1]? = some 0x90 ∧ ∃ a ∈ es, s.addr + o = a + 14 ∨ s.addr + o = a + 18

/-- The function at `f`, in section `t`, starts with one NOP of two bytes, behind an `endbr64` if there is one. -/
def Single (t : Sec) (f : Nat) : Prop :=
  t.addr ≤ f ∧ ((∃ r, t.data.drop (f - t.addr) = [0xf3, 0x0f, 0x1e, 0xfa, 0x66, 0x90] ++ r)
    ∨ ∃ r, t.data.drop (f - t.addr) = [0x66, 0x90] ++ r)

end Verif.Files
