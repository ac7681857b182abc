import Verif.Base.Str
import Verif.Post.Model

/-!
Model of the commands that look into ELF files by the names of sections: `ulp livepatchable` and `ulp post` as whole
commands (tools/livepatchable.c, tools/post.c), and the lookup of sections by the commands for livepatches
(tools/elf-extra.c, tools/patches.c:226-275).  libelf is represented by its answers: what a file is, the names, addresses and
contents of its sections, and its symbols.  Sections without contents in the file (SHT_NOBITS) are not modelled.
-/

namespace Verif.Files

/-- "__patchable_function_entries", tools/livepatchable.c:59, tools/post.c:92,136. -/
def entriesName : Str := "__patchable_function_entries".toUTF8.toList

/-- ".ulp.comments", tools/patches.c:244. -/
def commentsName : Str := ".ulp.comments".toUTF8.toList

/-- A section as libelf presents it.  `name`: what `elf_strptr` answers for `sh_name` (`none`: NULL, the offset is outside of
the string table or there is none). -/
structure Sec where
  name : Option Str
  addr : Nat
  data : List UInt8
deriving DecidableEq, Repr

/-- A file as libelf presents it: no ELF file (or damaged so that libelf takes it for none), or an ELF file with its class
(64 bits or not), whether `elf_getshdrstrndx` succeeds, its sections (the first one is the null section), and the symbols as
in `Verif.Post`. -/
inductive File where
  | other
  | elf (wide strtab : Bool) (secs : List Sec) (syms : List (Nat × Nat))
deriving DecidableEq, Repr

/-- How a part of a command ends: a value, exit of the command with a status, an assertion (SIGABRT), or undefined behaviour
(a null pointer or memory outside of a section is used). -/
inductive Res (α : Type) where
  | ok (a : α)
  | exit (status : Nat)
  | abort
  | undefined
deriving DecidableEq, Repr

/-- The loop of `find_section_by_name`, tools/post.c:68-74, from section `i` on: `elf64_getshdr` is NULL for a file of 32 bits
and dereferenced on line 71, a name that is NULL is given to `strcmp` on line 72. -/
def findLoop (wide : Bool) (name : Str) (i : Nat) : List Sec → Res (Option Nat)
  | [] => .ok none
  | s :: ss =>
    if !wide then .undefined
    else match s.name with
      | none => .undefined
      | some n => if n = name then .ok (some i) else findLoop wide name (i + 1) ss

/-- `find_section_by_name`, tools/post.c:51-77.  `elf_nextscn` begins with section 1. -/
def findSection (f : File) (name : Str) : Res (Option Nat) :=
  match f with
  | .other => .exit 1
  | .elf wide strtab secs _ => if !strtab then .exit 1 else findLoop wide name 1 secs.tail

/-- How a command ends. -/
inductive Status where
  | exit (status : Nat)
  | abort
  | undefined
deriving DecidableEq, Repr

/-- What `ulp livepatchable` says on stderr. -/
inductive Said where
  | yes
  | no
deriving DecidableEq, Repr

/-- `run_livepatchable`, tools/livepatchable.c:40-73, on a file (`none`: it cannot be opened).  Messages of `errx` are left
out; `WARN` is silent with `-q` (tools/introspection.c:86-105). -/
def livepatchable (quiet : Bool) : Option File → Status × Option Said
  | none => (.exit 1, none)
  | some f =>
    match findSection f entriesName with
    | .ok none => (.exit 1, if quiet then none else some .no)
    | .ok (some _) => (.exit 0, if quiet then none else some .yes)
    | .exit n => (.exit n, none)
    | .abort => (.abort, none)
    | .undefined => (.undefined, none)

/-- The library as `merge_nops_at_addr` uses it (`Verif.Post`). -/
def toPost (secs : List Sec) (syms : List (Nat × Nat)) : Post.Elf := ⟨secs.map fun s => ⟨s.addr, s.data⟩, syms⟩

/-- The file with the contents of sections taken from `e`: names and layout are libelf's own, tools/post.c:132. -/
def withData (secs : List Sec) (e : Post.Elf) : List Sec := secs.zipWith (fun s p => { s with data := p.data }) e.secs

/-- The loop of `nops_fixup`, tools/post.c:101-114, on what is left of the contents of the section with the entries; the last
word is read beyond the section if its size is no multiple of 8.  (On x86-64; the library is read at `e`, while the entries are
those of the file: no function entry is within `__patchable_function_entries`.)  -/
def fixupLoop (e : Post.Elf) : (fuel : Nat) → List UInt8 → Res Post.Elf
  | _, [] => .ok e
  | 0, _ => .ok e
  | fuel + 1, d =>
    if d.length < 8 then .undefined
    else match Post.mergeAt e ((leVal (d.take 8) + 14) % 2 ^ 64) with
      | .ok e' => fixupLoop e' fuel (d.drop 8)
      | .abort => .abort
      | .ub => .undefined

/-- `nops_fixup`, tools/post.c:83-115. -/
def fixup (secs : List Sec) (syms : List (Nat × Nat)) (i : Nat) : Res Post.Elf :=
  match secs[i]? with
  | none => .abort
  | some s => fixupLoop (toPost secs syms) s.data.length s.data

/-- `run_post`, tools/post.c:118-151, with the file as it is afterwards.  `none`: it cannot be opened for writing.  `damaged`:
what the file is if `elf_update` fails (`none`: it succeeds). `elf_flagelf` refuses files that are no ELF files. -/
def post (damaged : Option File) : Option File → Status × Option File
  | none => (.exit 1, none)
  | some .other => (.abort, some .other)
  | some (.elf wide strtab secs syms) =>
    match findSection (.elf wide strtab secs syms) entriesName with
    | .ok none => (.exit 1, some (.elf wide strtab secs syms))
    | .ok (some i) =>
      match fixup secs syms i with
      | .ok e =>
        match damaged with
        | none => (.exit 0, some (.elf wide strtab (withData secs e) syms))
        | some d => (.exit 1, some d)
      | .exit n => (.exit n, some (.elf wide strtab secs syms))
      | .abort => (.abort, some (.elf wide strtab secs syms))
      | .undefined => (.undefined, some (.elf wide strtab secs syms))
    | .exit n => (.exit n, some (.elf wide strtab secs syms))
    | .abort => (.abort, some (.elf wide strtab secs syms))
    | .undefined => (.undefined, some (.elf wide strtab secs syms))

/-- The loop of `get_elfscn_by_name`, tools/elf-extra.c:82-92: works for both classes; a missing name is given to `strcmp`, and
so is what `elf_strptr` makes of an uninitialised index if there is no string table (line 89 ignores the failure). -/
def scnLoop (strtab : Bool) (name : Str) : List Sec → Res (Option Sec)
  | [] => .ok none
  | s :: ss =>
    if !strtab then .undefined
    else match s.name with
      | none => .undefined
      | some n => if n = name then .ok (some s) else scnLoop strtab name ss

/-- `get_elfscn_by_name`, tools/elf-extra.c:70-94: from section 0 on. -/
def scnByName (f : File) (name : Str) : Res (Option Sec) :=
  match f with
  | .other => .ok none
  | .elf _ strtab secs _ => scnLoop strtab name secs

/-- `extract_ulp_comment_to_mem`, tools/patches.c:241-275, and `load_elf`, tools/elf-extra.c:48-67 (`none`: the file cannot be
opened): `none` for no comments. -/
def comments : Option File → Res (Option (List UInt8))
  | none => .ok none
  | some f =>
    match scnByName f commentsName with
    | .ok none => .ok none
    | .ok (some s) => .ok (if s.data = [] then none else some s.data)
    | .exit n => .exit n
    | .abort => .abort
    | .undefined => .undefined

end Verif.Files
