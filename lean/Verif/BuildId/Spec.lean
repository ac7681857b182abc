import Verif.BuildId.Model

/-! ELF notes, as the ELF specification lays them out. -/

namespace Verif.BuildId.Spec

open Verif.BuildId

/-- A note. -/
structure Note where
  type : Nat
  name : Bytes
  desc : Bytes
deriving DecidableEq, Repr

/-- Zero bytes up to the next multiple of 4. -/
def pad (n : Nat) : Bytes := List.replicate ((4 - n % 4) % 4) 0

/-- A note in memory. -/
def Note.bytes (n : Note) : Bytes :=
  le 4 n.name.length ++ le 4 n.desc.length ++ le 4 n.type ++ n.name ++ pad n.name.length ++ n.desc ++ pad n.desc.length

/-- A segment of notes. -/
def segment (notes : List Note) : Bytes := notes.flatMap Note.bytes

/-- Sizes fit their fields. -/
def Note.Good (n : Note) : Prop := n.type < 2 ^ 32 ∧ n.name.length + 3 < 2 ^ 31 ∧ n.desc.length + 3 < 2 ^ 31

/-- A GNU build id note. -/
def Note.isBuildId (n : Note) : Bool := n.type == 3 && n.name == [71, 78, 85, 0]

/-- The build id in a segment: that of the first GNU build id note. -/
def buildId (notes : List Note) : Option Bytes := (notes.find? Note.isBuildId).map Note.desc

/-- What the library takes for a build id note: a note of type 3 with a 4-byte name and at least 16 bytes. -/
def libAccepts (n : Note) : Bool := n.type == 3 && n.name.length == 4 && decide (16 ≤ n.desc.length)

end Verif.BuildId.Spec
