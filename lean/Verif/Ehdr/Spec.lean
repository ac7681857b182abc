import Verif.Ehdr.Model
import Verif.SelfWrite.Spec
import Verif.Names.Spec

/-! What the kernel shows of the mappings of a process. -/

namespace Verif.Ehdr

/-- A mapping: addresses, the columns after them, and what is mapped: a path, a name in brackets, or nothing.  If the file has been deleted,
the path has ` (deleted)` after it. -/
structure Mapping where
  start : Nat
  stop : Nat
  perms : Str
  offset : Str
  device : Str
  inode : Str
  /-- Number of blanks that bring the path to its column. -/
  pad : Nat
  path : Str

/-- A column: something without blanks. -/
def Column (s : Str) : Prop := s ≠ [] ∧ 32 ∉ s

/-- As the kernel writes them: 64-bit addresses, columns, and no line breaks in paths (they are written as `\012`), which do not start with
a blank. -/
structure Mapping.Valid (m : Mapping) : Prop where
  start : m.start < 2 ^ 64
  perms : Column m.perms
  offset : Column m.offset
  device : Column m.device
  inode : Column m.inode
  path : 10 ∉ m.path ∧ m.path.head? ≠ some 32

/-- The line, as `show_map_vma` of the kernel writes it. -/
def Mapping.line (m : Mapping) : Str :=
  SelfWrite.hex8 m.start ++ [45] ++ SelfWrite.hex8 m.stop ++ [32] ++ m.perms ++ [32] ++ m.offset ++ [32] ++ m.device ++ [32] ++ m.inode ++ [32] ++
    List.replicate m.pad 32 ++ m.path ++ [10]

/-- The last part of the path is that name. -/
def Last (path name : Str) : Prop := 47 ∉ name ∧ (path = name ∨ ∃ dir, path = dir ++ [47] ++ name)

/-- No blanks in the path, apart from the one that says that the file, whose path does not end in a slash, has been deleted. -/
def NoBlank (path : Str) : Prop := 32 ∉ path ∨ ∃ p, path = p ++ " (deleted)".toUTF8.toList ∧ 32 ∉ p ∧ p.getLast? ≠ some 47

/-- The file mapped there has that name. -/
def Mapping.Of (m : Mapping) (name : Str) : Prop := Last m.path name ∨ ∃ p, m.path = p ++ " (deleted)".toUTF8.toList ∧ Last p name

end Verif.Ehdr
