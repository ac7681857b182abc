import Verif.Metadata.Model
import Verif.Text.Model

/-!
Model of `ulp check` (`run_check`, tools/check.c) together with what it runs in the process
(`__ulp_check_applied_patch`, lib/ulp.c).

The metadata is extracted and parsed as in `Verif.Metadata`.  Of the process, its applied patches, the error
state of libpulp and the metadata buffer are modelled.
-/

namespace Verif.Check

open Verif.Metadata (Bytes Res Src)

/-- A file given to the command: whether it is an ELF file, its section `.ulp` if it has one, and its real path. -/
structure Container where
  elf : Bool
  ulp : Option Bytes
  path : Str

/-- The variable `livepatch` of `run_check` after `extract_ulp_from_so_to_mem`. -/
inductive Extracted where
  | null
  | buf (b : Bytes)
  /-- Not assigned: the value is whatever the stack holds. -/
  | unset
  | ub
deriving DecidableEq, Repr

/-- `extract_ulp_from_so_to_mem`, tools/introspection.c:1891-1978: the two failures at :1897-1912 store a null pointer, those at
:1925-1952 store nothing. -/
def extractTo (c : Container) : Extracted :=
  if !c.elf then .null
  else match c.ulp with
    | none => .null
    | some data =>
      match Metadata.extract data c.path with
      | .ok b => .buf b
      | .err _ => .unset
      | .ub => .ub

/-- The process.  `held`: its threads are stopped by the tool. -/
structure Proc where
  applied : List Bytes
  errState : Nat
  buffer : Bytes
  held : Bool
deriving DecidableEq, Repr

/-- What the system answers: the steps of `run_check`, with the numbers they return. -/
structure World where
  alloc : Nat → Nat → Bool
  c0 : Bytes
  /-- Whether the indeterminate value of `livepatch` is a null pointer. -/
  stackNull : Bool
  /-- The argument of `-p`. -/
  pid : Option Str
  init : Int
  sanity : Int
  hijack : Int
  write : Bool
  /-- `run_and_redirect` -/
  run : Int
  /-- `restore_threads` -/
  restore : Int

/-- `ulp_get_applied_patch`, lib/ulp.c:1124-1134, on the 32 bytes the buffer starts with, and `__ulp_check_applied_patch`,
lib/ulp.c:213-228. -/
def checkApplied (p : Proc) : Int :=
  if p.errState ≠ 0 then 0
  else if p.buffer.take 32 ∈ p.applied then 1 else 0

/-- `set_id_buffer`, tools/introspection.c:1402-1424: 32 bytes. -/
def setId (id : Bytes) (p : Proc) : Proc := { p with buffer := id.take 32 ++ p.buffer.drop 32 }

/-- `patch_applied`, tools/introspection.c:1627-1661: error code or 0, and the result.  `run_and_redirect` returning 0 is
taken to mean that the routine ran to its end (see C71). -/
def patchApplied (w : World) (id : Bytes) (p : Proc) : Int × Int × Proc :=
  if !p.held then (256, 0, p)
  else if !w.write then (258, 0, p)
  else
    let p := setId id p
    if w.run ≠ 0 then (w.run, 0, p)
    else (0, checkApplied p, p)

/-- What the command comes to: undefined behaviour, or a return value of `run_check`. -/
inductive Exit where
  | ub
  | ret (r : Int)
deriving DecidableEq, Repr

/-- `run_check` after the metadata was parsed, tools/check.c:79-138. -/
def afterParse (w : World) (id : Bytes) (p : Proc) : Exit × Proc :=
  if !Text.isnumber w.pid then (.ret (-1), p)
  else if w.init ≠ 0 then (.ret (-1), p)
  else if w.sanity ≠ 0 then (.ret (-1), p)
  else if w.hijack = 265 then (.ret (-1), p)
  else if w.hijack > 0 then (.ret (-1), p)
  else
    let r := patchApplied w id { p with held := true }
    let check := r.1
    let result := r.2.1
    let p := r.2.2
    let p := if w.restore ≠ 0 then p else { p with held := false }
    if w.restore ≠ 0 then (.ret (-1), p)
    else if check ≠ 0 then (.ret (-1), p)
    else (.ret result, p)

/-- `run_check`, tools/check.c:43-144. -/
def runCheck (w : World) (c : Container) (p : Proc) : Exit × Proc :=
  match extractTo c with
  | .ub => (.ub, p)
  | .null => (.ret 1, p)
  | .unset => if w.stackNull then (.ret 1, p) else (.ub, p)
  | .buf b =>
    match Metadata.parse ⟨b, w.alloc⟩ w.c0 with
    | .ub => (.ub, p)
    | .err _ => (.ret 1, p)
    | .ok (q, _) => afterParse w q.patchId p

/-- The exit status: `main` returns what `run_check` does (tools/ulp.c:561-563, 598), of which the system keeps eight bits. -/
def status : Exit → Option Nat
  | .ub => none
  | .ret r => some (r % 256).toNat

end Verif.Check
