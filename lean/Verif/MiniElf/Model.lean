import Verif.Metadata.Model
import Verif.Base.Err

/-!
Model of the gdb interface: how a process reads a section of a live patch container by itself (lib/minielf.c,
lib/gdb_interface.c).

A regular file is the list of its bytes; `read` returns as many bytes as asked for, or what is left.
-/

namespace Verif.MiniElf

open Verif.Metadata (bufLen injectPath)

abbrev Bytes := List UInt8

/-- A local variable of the code; `none`: never written. -/
abbrev Buf := List (Option UInt8)

/-- A value, or undefined behaviour. -/
inductive Res (α : Type) where
  | ok (a : α)
  | ub
deriving DecidableEq, Repr

/-- `STRTBL_SIZE_MAX`, include/minielf.h:32. -/
def strtblMax : Nat := 0x500

/-- The fields of `Elf64_Ehdr` that are used, elf.h. -/
structure Ehdr where
  shoff : Nat
  shentsize : Nat
  shnum : Nat
  shstrndx : Nat
deriving DecidableEq, Repr

/-- A number of `n` bytes of the file. -/
def num (f : Bytes) (off n : Nat) : Nat := leVal ((f.drop off).take n)

/-- `Elf_Parse_Ehdr`, lib/minielf.c:51-70. -/
def parseEhdr (f : Bytes) : Option Ehdr :=
  if f.length < 64 then none
  else if f.take 4 ≠ [0x7f, 0x45, 0x4c, 0x46] then none
  else some ⟨num f 40 8, num f 58 2, num f 60 2, num f 62 2⟩

/-- `lseek(fd, off, SEEK_SET)`: fails for what is negative as `off_t`, the result is not checked. -/
def seek (pos off : Nat) : Nat := if off < 2 ^ 63 then off else pos

/-- A field of a structure read before; `none` if it was not initialised. -/
def field (b : Buf) (off n : Nat) : Option Nat :=
  let x := (b.drop off).take n
  if x.length = n ∧ x.all (·.isSome) then some (leVal (x.filterMap id)) else none

/-- `read(fd, shdr, ehdr->e_shentsize)`, lib/minielf.c:87-94 and 118-125: more than 64 bytes overflow the variable of the
caller.  `none`: fewer bytes than asked for. -/
def nextShdr (f : Bytes) (entsize pos : Nat) (shdr : Buf) : Res (Option Buf) :=
  let data := (f.drop pos).take entsize
  if 64 < data.length then .ub
  else if data.length ≠ entsize then .ok none
  else .ok (some (data.map some ++ shdr.drop data.length))

/-- The loop of `Elf_Get_Shdr`, lib/minielf.c:117-133, with `k` headers left: the header and the position in the file. -/
def getShdrLoop (f : Bytes) (entsize : Nat) : (k index pos : Nat) → Buf → Res (Option Buf × Nat)
  | 0, _, pos, _ => .ok (none, pos)
  | k + 1, index, pos, shdr => match nextShdr f entsize pos shdr with
    | .ub => .ub
    | .ok none => .ok (none, pos + ((f.drop pos).take entsize).length)
    | .ok (some shdr) =>
      if index = 0 then .ok (some shdr, pos + entsize)
      else getShdrLoop f entsize k (index - 1) (pos + entsize) shdr

/-- `Elf_Get_Shdr`, lib/minielf.c:108-133, called with a variable never written.  `libpulp_assert` only records an error,
see `gdbRun`. -/
def getShdr (f : Bytes) (h : Ehdr) (index pos : Nat) : Res (Option Buf × Nat) :=
  getShdrLoop f h.shentsize h.shnum index (seek pos h.shoff) (List.replicate 64 none)

/-- `strcmp(name, &strtbl[p]) == 0`, lib/minielf.c:97: reads as far as the strings agree. -/
def strcmpAt (strtbl : Buf) : Str → Nat → Res Bool
  | [], p => match strtbl[p]? with
    | some (some b) => .ok (b == 0)
    | _ => .ub
  | c :: name, p => match strtbl[p]? with
    | some (some b) => if b = c then strcmpAt strtbl name (p + 1) else .ok false
    | _ => .ub

/-- The loop of `Elf_Get_Shdr_By_Name`, lib/minielf.c:86-102. -/
def byNameLoop (f : Bytes) (entsize : Nat) (name : Str) (strtbl : Buf) : (k pos : Nat) → Buf → Res (Option Buf × Nat)
  | 0, pos, _ => .ok (none, pos)
  | k + 1, pos, shdr => match nextShdr f entsize pos shdr with
    | .ub => .ub
    | .ok none => .ok (none, pos + ((f.drop pos).take entsize).length)
    | .ok (some shdr) => match field shdr 0 4 with
      | none => .ub
      | some p => match strcmpAt strtbl name p with
        | .ub => .ub
        | .ok true => .ok (some shdr, pos + entsize)
        | .ok false => byNameLoop f entsize name strtbl k (pos + entsize) shdr

/-- `Elf_Get_Shdr_By_Name`, lib/minielf.c:77-102. -/
def byName (f : Bytes) (h : Ehdr) (name : Str) (strtbl : Buf) (pos : Nat) : Res (Option Buf × Nat) :=
  byNameLoop f h.shentsize name strtbl h.shnum (seek pos h.shoff) (List.replicate 64 none)

/-- `Elf_Load_Strtbl`, lib/minielf.c:136-170: what is in the caller's variable then, and the position in the file.  Its
result is not looked at by the caller. -/
def loadStrtbl (f : Bytes) (h : Ehdr) (pos : Nat) : Res (Buf × Nat) :=
  match getShdr f h h.shstrndx pos with
  | .ub => .ub
  | .ok (none, pos) => .ok (List.replicate strtblMax none, pos)
  | .ok (some shdr, pos) => match field shdr 32 8 with
    | none => .ub
    | some size =>
      if strtblMax < size then .ok (List.replicate strtblMax none, pos)
      else match field shdr 24 8 with
        | none => .ub
        | some off =>
          let data := (f.drop (seek pos off)).take size
          .ok (data.map some ++ List.replicate (strtblMax - data.length) none, seek pos off + data.length)

/-- `Elf_Load_Section`, lib/minielf.c:173-197: the bytes; `none` if it returns 0 on failure. -/
def loadSection (f : Bytes) (destSize : Nat) (shdr : Buf) (pos : Nat) : Res (Option Bytes) :=
  match field shdr 32 8 with
  | none => .ub
  | some size =>
    if destSize < size then .ok none
    else match field shdr 24 8 with
      | none => .ub
      | some off =>
        let data := (f.drop (seek pos off)).take size
        if data.length ≠ size then .ok none else .ok (some data)

/-- `Get_Elf_Section`, lib/minielf.c:200-247, on a file that can be opened or not: the section, or the error returned (as
positive number). -/
def getSection (destSize : Nat) (name : Str) (file : Option Bytes) : Res (Except Err Bytes) :=
  match file with
  | none => .ok (.error ENOENT)
  | some f => match parseEhdr f with
    | none => .ok (.error EINVAL)
    | some h => match loadStrtbl f h 64 with
      | .ub => .ub
      | .ok (strtbl, pos) => match byName f h name strtbl pos with
        | .ub => .ub
        | .ok (none, _) => .ok (.error EINVAL)
        | .ok (some shdr, pos) => match loadSection f destSize shdr pos with
          | .ub => .ub
          | .ok none => .ok (.error EINVAL)
          | .ok (some data) => if data.length = 0 then .ok (.error EINVAL) else .ok (.ok data)

/-- `.ulp` and `.ulp.rev`, lib/minielf.c:250-260. -/
def secUlp : Str := [46, 117, 108, 112]
def secRev : Str := [46, 117, 108, 112, 46, 114, 101, 118]

/-- The error state after the file was read: the assertions of lib/minielf.c:81,112,139 set it (lib/error.c:76-86). -/
def stateAfter (file : Option Bytes) (state : Err) : Err :=
  match file.bind parseEhdr with
  | none => state
  | some h => if h.shentsize = 64 then state else EUNKNOWN

/-- What a call by gdb does: the value returned, the error state after it, and the metadata buffer if a patch was loaded
from it. -/
structure Out where
  ret : Nat
  state : Err
  loaded : Option Bytes
deriving DecidableEq

/-- `gdb_ulp_apply` (`name` is `.ulp`) and `gdb_ulp_revert` (`.ulp.rev`), lib/gdb_interface.c:96-158, up to the call of
`load_patch` (lib/ulp.c:182-212; with an empty instruction queue and outside of malloc and dlopen), after which
they return `rest`. -/
def gdbRun (name : Str) (file : Option Bytes) (path : Str) (state : Err) (rest : Bytes → Nat) : Res Out :=
  match getSection bufLen name file with
  | .ub => .ub
  | .ok (.error e) => .ok ⟨e, stateAfter file state, none⟩
  | .ok (.ok data) => match injectPath (data ++ List.replicate (bufLen - data.length) 0) path data.length with
    | .ub => .ub
    | .err _ => .ok ⟨EINVALIDULP, stateAfter file state, none⟩
    | .ok buf =>
      if stateAfter file state ≠ ENONE then .ok ⟨stateAfter file state, stateAfter file state, none⟩
      else .ok ⟨rest buf, ENONE, some buf⟩

def gdbApply := gdbRun secUlp
def gdbRevert := gdbRun secRev

end Verif.MiniElf
