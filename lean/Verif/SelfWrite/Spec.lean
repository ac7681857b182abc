import Verif.SelfWrite.Model

/-!
What `/proc/self/maps` looks like and what the pages of a write are, independently of the code.
-/

namespace Verif.SelfWrite

/-- Lower-case hexadecimal digits of `n`, without leading zeros (but `0` for 0). -/
def hexChar (d : Nat) : UInt8 := if d < 10 then UInt8.ofNat (48 + d) else UInt8.ofNat (87 + d)

def toHex (n : Nat) : Bytes :=
  if n < 16 then [hexChar n] else toHex (n / 16) ++ [hexChar (n % 16)]
termination_by n

/-- `%08lx`. -/
def hex8 (n : Nat) : Bytes := List.replicate (8 - (toHex n).length) 48 ++ toHex n

/-- A line of `/proc/<pid>/maps`: a range of addresses, its protection and the rest of the line (shared
or private, offset, device, inode, path). -/
structure Mapping where
  start : Nat
  stop : Nat
  prot : Prot
  rest : Bytes
deriving DecidableEq, Repr

/-- The text of a line, as `show_vma_header_prefix` of the kernel writes it. -/
def Mapping.text (m : Mapping) : Bytes :=
  hex8 m.start ++ [45] ++ hex8 m.stop ++
    [32, if m.prot.r then 114 else 45, if m.prot.w then 119 else 45, if m.prot.x then 120 else 45] ++
    m.rest

/-- The whole file. -/
def fileText (ms : List Mapping) : Bytes := ms.flatMap fun m => m.text ++ [10]

/-- Lines the kernel writes: 64-bit addresses, no newline in the rest (the kernel writes `\012`). -/
def Mapping.Ok (m : Mapping) : Prop := m.start < 2 ^ 64 ∧ m.stop < 2 ^ 64 ∧ ∀ b ∈ m.rest, b ≠ 10

/-- The address is in the range. -/
def Mapping.Has (m : Mapping) (addr : Nat) : Prop := m.start ≤ addr ∧ addr < m.stop

instance (m : Mapping) (addr) : Decidable (m.Has addr) := inferInstanceAs (Decidable (_ ∧ _))
instance (m : Mapping) : Decidable m.Ok := inferInstanceAs (Decidable (_ ∧ _))

/-- Protection of an address according to a list of mappings. -/
def protOf (ms : List Mapping) (addr : Nat) : Option Prot :=
  (ms.find? fun m => decide (m.Has addr)).map (·.prot)

/-- The line fits the line buffer with its newline. -/
def Mapping.Short (m : Mapping) : Prop := m.text.length < 2048

instance (m : Mapping) : Decidable m.Short := inferInstanceAs (Decidable (_ < _))

/-- The system is a real one as far as `/proc/self/maps` goes: for every assignment of protections to
the first `limit` pages the file describes the pages, in lines short enough for the line buffer. -/
def Honest (sys : Sys) (limit : Nat) : Prop :=
  0 < sys.pageSize ∧ limit * sys.pageSize < 2 ^ 64 ∧ (∀ i j, (sys.junk i j).length = 2048) ∧
  ∀ pages : Nat → Option Prot, (∀ p, limit ≤ p → pages p = none) →
    ∃ ms : List Mapping, (∀ m ∈ ms, m.Ok ∧ m.Short) ∧ sys.maps pages = fileText ms ∧
      ∀ page, protOf ms (page * sys.pageSize) = pages page

/-- A page holding one of the bytes `a .. a+n-1`. -/
def Touches (ps a n page : Nat) : Prop := ∃ x, a ≤ x ∧ x < a + n ∧ x / ps = page

end Verif.SelfWrite
