import Verif.Base.Str
import Verif.SelfWrite.Model

/-!
Model of `get_ehdr_addr` (tools/introspection.c:533-587): where the ELF header of an object is.  Of an object without load bias, such as a
program that is not position-independent, the tools look it up in `/proc/<pid>/maps`, by the name of the program.

Lines are as `getline` returns them and have no NUL bytes.  Memory for them is available.
-/

namespace Verif.Ehdr

/-- `strtok` with one delimiter: the token and what is left for the next call.  After a call that gives nothing the following ones give
nothing either. -/
def tok (d : UInt8) (s : Str) : Option (Str × Str) :=
  let s := s.dropWhile (· == d)
  if s = [] then none else some (s.takeWhile (· != d), (s.dropWhile (· != d)).drop 1)

/-- What comes of a line. -/
inductive Look where
  | found (addr : Nat)
  | other
  /-- `strlen` of a null pointer, or `bin_name[bin_len-1]` with `bin_len` 0: as `bin_len` is unsigned, a byte 4 GiB behind an empty string. -/
  | undefined
deriving DecidableEq, Repr

/-- The sixth token after the first, tools/introspection.c:555-563. -/
def pathTok (s : Str) : Option Str := do
  let (_, s) ← tok 32 s
  let (_, s) ← tok 32 s
  let (_, s) ← tok 32 s
  let (_, s) ← tok 32 s
  let (_, s) ← tok 32 s
  let (path, _) ← tok 32 s
  return path

/-- One line, tools/introspection.c:553-580; `main` is `p->dynobj_main->filename`. -/
def look (main line : Str) : Look :=
  match tok 45 line with
  | none => .undefined
  | some (addr1, s) => match pathTok s with
    | none => .undefined
    | some path =>
      let bin := getBasename path
      match bin.getLast? with
      | none => .undefined
      | some c =>
        let bin := if c = 10 then bin.dropLast else bin
        if bin = main then .found (SelfWrite.strtoul16 addr1).1 else .other

/-- The loop over the lines, tools/introspection.c:552-586; `none`: undefined behaviour. -/
def lookAll (main : Str) : List Str → Option Nat
  | [] => some 0
  | l :: ls => match look main l with
    | .found a => some a
    | .undefined => none
    | .other => lookAll main ls

/-- `get_ehdr_addr`, tools/introspection.c:533-587, of an object with load bias `bias`; `maps` is none if the file cannot be opened. -/
def ehdrAddr (bias : Nat) (maps : Option (List Str)) (main : Str) : Option Nat :=
  if bias ≠ 0 then some bias
  else match maps with
    | none => some 0
    | some ls => lookAll main ls

end Verif.Ehdr
