import Verif.Extract.Model
import Verif.Metadata.Model

/-!
Model of `ulp packer`'s reading of a description file (tools/packer.c).
-/

namespace Verif.Dsc

open Verif.Extract (SoInfo Sym getSymbol)
open Verif.Metadata (Patch Unit' Ref)

abbrev Bytes := List UInt8

/-- Result of a piece of the packer: a value, an error message and exit status 1, a use of the NULL pointer, or
another memory error. -/
inductive Res (α : Type) where
  | ok (a : α)
  | err
  | null
  | ub
deriving DecidableEq, Repr

instance : Monad Res where
  pure := .ok
  bind m f := match m with
    | .ok a => f a
    | .err => .err
    | .null => .null
    | .ub => .ub

/-- A file that can be opened for reading: whether it is a directory, its contents, and what
`ulp_so_info_open` (tools/extract.c:560-585) makes of it. -/
structure File where
  dir : Bool
  bytes : Bytes
  info : Option SoInfo
deriving DecidableEq

/-- What the packer is started with: the files, and the options `--livepatch` and `--target`. -/
structure Env where
  fs : Str → Option File
  livepatch : Option Str
  target : Option Str

/-! ### Text -/

/-- The lines of a file, as `getline` returns them one by one: with their newline, which the last one may
lack. -/
def lines : Bytes → List Str
  | [] => []
  | c :: cs =>
    if c = 10 then [c] :: lines cs
    else match lines cs with
      | [] => [[c]]
      | l :: ls => (c :: l) :: ls

/-- The C string in a buffer. -/
def cstr (b : Bytes) : Str := b.takeWhile (· != 0)

/-- The C string left of a line after a final newline was overwritten by NUL, for example
tools/packer.c:726-727. -/
def chomp (l : Bytes) : Str := cstr (if l.getLast? = some 10 then l.dropLast else l)

/-- `strchr(s, ':')`: what is before and after the colon. -/
def strchr : Str → Option (Str × Str)
  | [] => none
  | c :: cs => if c = 58 then some ([], cs) else (strchr cs).map fun (a, b) => (c :: a, b)

/-- Value of the leading hexadecimal digits. -/
def hexDigits (s : Str) : Nat :=
  (s.takeWhile fun c => (Text.hexVal c).isSome).foldl (fun a c => a * 16 + (Text.hexVal c).getD 0) 0

/-- The sign of a number, and what follows it. -/
def sign : Str → Bool × Str
  | 45 :: t => (true, t)
  | 43 :: t => (false, t)
  | t => (false, t)

/-- Skip `0x`, if a digit follows. -/
def skip0x : Str → Str
  | 48 :: x :: d :: t => if (x = 120 ∨ x = 88) ∧ (Text.hexVal d).isSome then d :: t else 48 :: x :: d :: t
  | t => t

/-- `(intptr_t)strtol(s, NULL, 16)` as stored in a `uintptr_t`: white space, sign and `0x` are skipped, and
numbers too large for a `long` are replaced by the largest. -/
def strtol16 (s : Str) : Nat :=
  let (neg, s) := sign (s.dropWhile Text.isSpace)
  if neg then (2 ^ 64 - min (hexDigits (skip0x s)) (2 ^ 63)) % 2 ^ 64 else min (hexDigits (skip0x s)) (2 ^ 63 - 1)

/-! ### The container -/

/-- Opening a file and its information, tools/packer.c:597-608,618-627 and 689-712. -/
def openInfo (e : Env) (path : Str) : Res SoInfo :=
  match e.fs path with
  | none => .err
  | some f => if f.dir then .err else match f.info with
    | none => .err
    | some i => .ok i

/-- The first loop and the opening of the container, tools/packer.c:558-627: the information of the container
and the lines not read yet.  Comment lines are skipped here; their buffer is modelled in
`Verif.Listing` (C66, C67). -/
def readContainer (e : Env) : List Str → Res (SoInfo × List Str)
  | [] => .err
  | l :: ls =>
    if l.head? = some 10 ∨ l.head? = some 33 then readContainer e ls
    else do
      let i ← openInfo e (e.livepatch.getD (chomp l))
      pure (i, ls)

/-! ### Dependencies -/

/-- `add_dependency`, tools/packer.c:320-356: the id of the dependency. -/
def addDependency (e : Env) (path : Str) : Res Bytes :=
  match e.fs path with
  | none => .err
  | some f => match f.bytes with
    | [] => .err
    | type :: rest =>
      if type ≠ 1 then .err
      else if rest.length < 32 then .err
      else .ok (rest.take 32)

/-- The loop for dependencies, tools/packer.c:629-653: each is put before the others. -/
def readDeps (e : Env) : List Str → List Bytes → Res (List Bytes × List Str)
  | [], acc => .ok (acc, [])
  | l :: ls, acc =>
    if l.head? = some 42 then do
      let id ← addDependency e ((chomp l).drop 1)
      readDeps e ls (id :: acc)
    else .ok (acc, l :: ls)

/-! ### The other lines -/

/-- The `%` that marks thread-local references, tools/packer.c:738-745. -/
def tlsMark : Str → Bool × Str
  | 37 :: t => (true, t)
  | t => (false, t)

/-- A line starting with `#`, tools/packer.c:730-792; `s` is the rest of the line. -/
def refLine (target container : SoInfo) (s : Str) : Res Ref :=
  let (tls, third) := tlsMark s
  match strchr third with
  | none => .null
  | some (tname, rest) => match strchr rest with
    | none => match getSymbol target tname with
      | none => .err
      | some a => match getSymbol container rest with
        | none => .err
        | some b => .ok ⟨tname, rest, a.offset.toNat, b.offset.toNat, tls⟩
    | some (rname, rest) => match strchr rest with
      | none => .null
      | some (a, b) => .ok ⟨tname, rname, strtol16 a, strtol16 b, tls⟩

/-- A line naming a function and its replacement, tools/packer.c:805-873.  An empty string makes
`first[strlen(first) - 1]` an access before the buffer.  Leading colons make `strtok` return a pointer to
the middle of the buffer, which is freed later (line 878 or 892). -/
def funcLine (target container : SoInfo) (s : Str) : Res (Str × Str) :=
  if s = [] then .ub
  else if s.getLast? = some 58 then .err
  else if s.head? = some 58 then .ub
  else
    let old := s.takeWhile (· != 58)
    let new := ((s.dropWhile (· != 58)).dropWhile (· == 58)).takeWhile (· != 58)
    match getSymbol target old with
    | none => .err
    | some _ =>
      if new = [] then .err
      else match getSymbol container new with
        | none => .err
        | some _ => .ok (old, new)

/-- What was read: the target library, the functions, and the references (last one first). -/
structure Acc where
  obj : Option SoInfo
  units : List (Str × Str)
  refs : List Ref

/-- `PATH_MAX`, the size of `target_path` (tools/packer.c:531). -/
def pathMax : Nat := 4096

/-- One line of the main loop, tools/packer.c:655-884. -/
def entry (e : Env) (container : SoInfo) (acc : Acc) (l : Str) : Res Acc :=
  if l.head? = some 10 ∨ l.head? = some 33 then .ok acc
  else if l.head? = some 64 then
    if acc.obj.isSome then .err
    else
      let path := e.target.getD ((chomp l).drop 1)
      if path.length ≥ pathMax then .ub
      else do
        let i ← openInfo e path
        pure { acc with obj := some i }
  else match acc.obj with
    | none => .err
    | some t =>
      if l.head? = some 35 then do
        let r ← refLine t container ((chomp l).drop 1)
        pure { acc with refs := r :: acc.refs }
      else do
        let u ← funcLine t container (chomp l)
        pure { acc with units := acc.units ++ [u] }

/-- The main loop. -/
def entries (e : Env) (container : SoInfo) : List Str → Acc → Res Acc
  | [], acc => .ok acc
  | l :: ls, acc => do
    let acc ← entry e container acc l
    entries e container ls acc

/-- `parse_description`, tools/packer.c:512-899. -/
def parseDescription (e : Env) (content : Bytes) : Res (List Bytes × Acc) := do
  let (c, ls) ← readContainer e (lines content)
  let (deps, ls) ← readDeps e ls []
  let acc ← entries e c ls ⟨none, [], []⟩
  pure (deps, acc)

/-! ### Addresses -/

/-- `get_target_addrs`, tools/packer.c:165-181. -/
def getTargetAddrs (t : SoInfo) : List (Str × Str) → Res (List Unit')
  | [] => .ok []
  | (old, new) :: us => match getSymbol t old with
    | none => .err
    | some s => do
      let rest ← getTargetAddrs t us
      pure (⟨old, new, s.offset.toNat⟩ :: rest)

/-- `get_target_ref_addrs`, tools/packer.c:196-217. -/
def getTargetRefAddrs (t : SoInfo) : List Ref → Res (List Ref)
  | [] => .ok []
  | r :: rs =>
    if r.targetOffset ≠ 0 then do
      let rest ← getTargetRefAddrs t rs
      pure (r :: rest)
    else match getSymbol t r.targetName with
      | none => .err
      | some s => do
        let rest ← getTargetRefAddrs t rs
        pure ({ r with targetOffset := s.offset.toNat } :: rest)

/-- What the packer makes of a description up to writing the metadata: `parse_description` and
`get_ulp_elf_metadata` (tools/packer.c:66-93,1169-1179), with the patch id of `write_patch_id`.  Without a
target line `ulp->objs` is NULL. -/
def describe (e : Env) (id content : Bytes) : Res Patch := do
  let (deps, acc) ← parseDescription e content
  match acc.obj with
  | none => .null
  | some t =>
    let units ← getTargetAddrs t acc.units
    let refs ← getTargetRefAddrs t acc.refs
    pure ⟨id, t.buildId, t.name, units, deps, refs⟩

end Verif.Dsc
