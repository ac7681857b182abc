import Verif.Extract.Model

/-!
Symbol tables and note sections, in the terms of the ELF specification.
-/

namespace Verif.Extract.Spec

open Verif.Extract

/-- `r` is the last entry named `n` of a symbol table. -/
def LastNamed (l : List RawSym) (n : Str) (r : RawSym) : Prop :=
  ∃ pre post, l = pre ++ r :: post ∧ r.name = n ∧ ∀ x ∈ post, x.name ≠ n

/-- All entries of both symbol tables. -/
def entries (e : Elf) : List RawSym := e.dynsym.getD [] ++ e.symtab.getD []

/-- Zero bytes up to a multiple of 4. -/
def padded (b : Bytes) : Bytes := b ++ List.replicate (align4 b.length - b.length) 0

/-- A note: sizes of name and descriptor, type, then name and descriptor, each padded. -/
def note (name : Bytes) (type : Nat) (desc : Bytes) : Bytes :=
  le 4 name.length ++ le 4 desc.length ++ le 4 type ++ padded name ++ padded desc

/-- The name of the notes of the GNU tools. -/
def gnu : Bytes := [71, 78, 85, 0]

end Verif.Extract.Spec
