import Verif.MiniElf.Model

/-!
What an ELF file is, in the terms of the ELF specification: 64 bit, little endian.
-/

namespace Verif.MiniElf.Spec

/-- The file has the number `v` in the `n` bytes at `off`. -/
def Num (f : Bytes) (off n v : Nat) : Prop := (f.drop off).take n = le n v ∧ v < 256 ^ n

/-- A section. -/
structure Sec where
  name : Str
  offset : Nat
  size : Nat

/-- The file is an ELF file with these sections, and the names in a table at `stroff` of `strsize` bytes. -/
structure IsElf (f : Bytes) (secs : List Sec) (stroff strsize : Nat) : Prop where
  magic : f.take 4 = [0x7f, 0x45, 0x4c, 0x46]
  length : f.length < 2 ^ 63
  header : ∃ shoff strndx, Num f 40 8 shoff ∧ Num f 58 2 64 ∧ Num f 60 2 secs.length ∧ Num f 62 2 strndx ∧
    shoff + 64 * secs.length ≤ f.length ∧
    (∃ s, secs[strndx]? = some s ∧ s.offset = stroff ∧ s.size = strsize) ∧
    ∀ i s, secs[i]? = some s → ∃ p, Num f (shoff + 64 * i) 4 p ∧ Num f (shoff + 64 * i + 24) 8 s.offset ∧
      Num f (shoff + 64 * i + 32) 8 s.size ∧
      p + s.name.length < strsize ∧ (f.drop (stroff + p)).take (s.name.length + 1) = s.name ++ [0] ∧ 0 ∉ s.name
  strtab : stroff + strsize ≤ f.length

/-- `s` is the first section of that name. -/
def First (secs : List Sec) (name : Str) (s : Sec) : Prop :=
  ∃ pre post, secs = pre ++ s :: post ∧ s.name = name ∧ ∀ x ∈ pre, x.name ≠ name

end Verif.MiniElf.Spec
