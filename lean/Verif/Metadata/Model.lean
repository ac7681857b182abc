import Verif.Base.Err
import Verif.Base.Str
import Verif.Base.Mem

/-!
Model of the livepatch metadata: how `ulp packer` writes it, how the trigger tool and the gdb interface
insert the path of the container, and how it is parsed.
-/

namespace Verif.Metadata

abbrev Bytes := List UInt8

/-- Result of a piece of code: a value, an error code it returns, or undefined behaviour (a read outside
of the source buffer or a write outside of the destination). -/
inductive Res (α : Type) where
  | ok (a : α)
  | err (e : Err)
  | ub
deriving DecidableEq, Repr

/-- What the parser works on: the metadata, and which allocations succeed (`alloc cur size`, with `cur`
how much was consumed so far; no two allocations agree in both). -/
structure Src where
  bytes : Bytes
  alloc : Nat → Nat → Bool

/-- State of the parser: `cur` (common/common.c:229) and the bytes of its local variable `c`
(common/common.c:257), which short reads leave partly as it was. -/
structure St where
  cur : Nat
  c : Bytes
deriving DecidableEq, Repr

/-- A piece of the parser. -/
def P (α : Type) := Src → St → Res (α × St)

instance : Monad P where
  pure a := fun _ st => .ok (a, st)
  bind m f := fun s st => match m s st with
    | .ok (a, st) => f a s st
    | .err e => .err e
    | .ub => .ub

/-- `return e`. -/
def fail {α} (e : Err) : P α := fun _ _ => .err e

/-- `read_from_mem(to, 1, count, src)`, common/common.c:230-248, to a destination of `cap` bytes; the result
is what was copied. -/
def readFromMem (cap count : Nat) : P Bytes := fun s st =>
  let remaining : Int := s.bytes.length - st.cur
  let final : Int := if count > remaining then remaining else count
  if final < 0 ∨ cap < final ∨ s.bytes.length < st.cur + final then .ub
  else .ok ((s.bytes.drop st.cur).take final.toNat, { st with cur := st.cur + final.toNat })

/-- `calloc(size, 1)`, with `e` returned if it fails. -/
def calloc (size : Nat) (e : Err) : P Unit := fun s st =>
  if s.alloc st.cur size then .ok ((), st) else .err e

/-- `got` bytes are copied to the variable `c`. -/
def setC (got : Bytes) : P Bytes := fun _ st =>
  let c := got ++ (st.c.drop got.length).take (4 - got.length)
  .ok (c, { st with c := c })

/-- `if (read_from_mem(&c, sizeof(uint32_t), 1, src) < need) return EINVALIDULP;`, for example common/common.c:278. -/
def readC (need : Nat) : P Nat := do
  let got ← readFromMem 4 4
  let c ← setC got
  if got.length < need then fail EINVALIDULP
  else pure (leVal c)

/-- `if (read_from_mem(&field, size, 1, src) < need) return e;` for a field holding `old` before. -/
def readField (old : Bytes) (need : Nat) (e : Err) : P Bytes := do
  let got ← readFromMem old.length old.length
  if got.length < need then fail e
  else pure (got ++ old.drop got.length)

/-- A string of `c` bytes read to `calloc(c + 1)`, for example common/common.c:283-293.  `c + 1` is computed
in 32 bits. -/
def readStr (c : Nat) : P Bytes := do
  calloc ((c + 1) % 2 ^ 32) EINVALIDULP
  let got ← readFromMem ((c + 1) % 2 ^ 32) c
  if got.length < c then fail EINVALIDULP
  else pure (got ++ [0])

/-- A byte string of `c` bytes read to `calloc(c)`, with the error of a failed allocation; for example
common/common.c:314-323,453-461. -/
def readBuf (c : Nat) (e : Err) : P Bytes := do
  calloc c e
  let got ← readFromMem c c
  if got.length < c then fail EINVALIDULP
  else pure got

/-- `n` iterations of a loop reading list elements. -/
def times {α} : Nat → P α → P (List α)
  | 0, _ => pure []
  | n + 1, p => do
    let x ← p
    let xs ← times n p
    pure (x :: xs)

/-- `struct ulp_unit` as parsed: the name buffers (with their terminators) and the address. -/
structure PUnit where
  oldFname : Bytes
  newFname : Bytes
  oldFaddr : Nat
deriving DecidableEq, Repr

/-- `struct ulp_reference` as parsed. -/
structure PRef where
  targetName : Bytes
  referenceName : Bytes
  targetOffset : Nat
  patchOffset : Nat
  tls : UInt8
deriving DecidableEq, Repr

/-- `struct ulp_metadata` and its `struct ulp_object` as parsed. -/
structure Parsed where
  type : UInt8
  patchId : Bytes
  soFilename : Bytes
  buildId : Bytes
  name : Bytes
  units : List PUnit
  deps : List Bytes
  refs : List PRef
deriving DecidableEq, Repr

/-- Sizes of the structures (any numbers do). -/
def sizeofObject := 48
def sizeofUnit := 32
def sizeofDependency := 48
def sizeofReference := 48

/-- One patching unit, common/common.c:361-410. -/
def readUnit : P PUnit := do
  calloc sizeofUnit ENOMEM
  let c ← readC 1
  let old ← readStr c
  let c ← readC 1
  let new ← readStr c
  let addr ← readField [0, 0, 0, 0, 0, 0, 0, 0] 1 EINVALIDULP
  pure ⟨old, new, leVal addr⟩

/-- One dependency, common/common.c:418-434. -/
def readDep : P Bytes := do
  calloc sizeofDependency ENOMEM
  readField (List.replicate 32 0) 32 EINVALIDULP

/-- One static data reference, common/common.c:444-505; `errno` of a failed allocation is ENOMEM. -/
def readRef : P PRef := do
  calloc sizeofReference ENOMEM
  let c ← readC 4
  let target ← readBuf c ENOMEM
  let c ← readC 4
  let ref ← readBuf c ENOMEM
  let toff ← readField [0, 0, 0, 0, 0, 0, 0, 0] 8 EINVALIDULP
  let poff ← readField [0, 0, 0, 0, 0, 0, 0, 0] 8 EINVALIDULP
  let tls ← readField [0] 1 EINVALIDULP
  pure ⟨target, ref, leVal toff, leVal poff, tls.headD 0⟩

/-- The header, common/common.c:266-350: type, patch id, path, build id and name of the target. -/
def readHeader : P (UInt8 × Bytes × Bytes × Bytes × Bytes) := do
  let type ← readField [0] 1 EINVALIDULP
  let id ← readField (List.replicate 32 0) 32 EINVALIDULP
  let c ← readC 1
  let path ← readStr c
  if path.headD 0 = 0 then fail EINVALIDULP
  else do
    calloc sizeofObject ENOMEM
    let c ← readC 1
    let buildId ← readBuf c EINVALIDULP
    let c ← readC 1
    let name ← readStr c
    pure (type.headD 0, id, path, buildId, name)

/-- The part of metadata that only patches to apply have, common/common.c:355-505. -/
def readBody : P (List PUnit × List Bytes × List PRef) := do
  let nunits ← readField [0, 0, 0, 0] 1 1
  let units ← times (leVal nunits) readUnit
  let ndeps ← readC 1
  let deps ← times ndeps readDep
  let nrefs ← readField [0, 0, 0, 0] 4 EINVALIDULP
  let refs ← times (leVal nrefs) readRef
  pure (units, deps, refs)

/-- `parse_metadata_from_mem`, common/common.c:250-512. -/
def parseMetadata : P Parsed := do
  let (type, id, path, buildId, name) ← readHeader
  if type = 2 then pure ⟨type, id, path, buildId, name, [], [], []⟩
  else do
    let (units, deps, refs) ← readBody
    pure ⟨type, id, path, buildId, name, units, deps, refs⟩

/-- `parse_metadata_from_mem` on a buffer; `c0` is what the variable `c` happens to hold. -/
def parse (s : Src) (c0 : Bytes) : Res (Parsed × St) := parseMetadata s ⟨0, c0⟩

/-! ### Writing -/

/-- A patching unit as the packer has it, include/ulp_common.h:140-150. -/
structure Unit' where
  oldFname : Str
  newFname : Str
  oldFaddr : Nat
deriving DecidableEq, Repr

/-- A reference as the packer has it. -/
structure Ref where
  targetName : Str
  referenceName : Str
  targetOffset : Nat
  patchOffset : Nat
  tls : Bool
deriving DecidableEq, Repr

/-- A livepatch as the packer has it, include/ulp_common.h:77-135. -/
structure Patch where
  patchId : Bytes
  buildId : Bytes
  name : Str
  units : List Unit'
  deps : List Bytes
  refs : List Ref
deriving DecidableEq, Repr

/-- A string with its length (both with the terminator), tools/packer.c:264-268. -/
def packStr (s : Str) : Bytes := le 4 (s.length + 1) ++ (s ++ [0])

/-- tools/packer.c:273-288. -/
def packUnit (u : Unit') : Bytes := packStr u.oldFname ++ packStr u.newFname ++ le 8 u.oldFaddr

/-- tools/packer.c:299-312. -/
def packRef (r : Ref) : Bytes :=
  packStr r.targetName ++ packStr r.referenceName ++ le 8 r.targetOffset ++ le 8 r.patchOffset ++
  [if r.tls then 1 else 0]

/-- Build id and its length, tools/packer.c:255-258 and 1119-1122. -/
def packBuildId (b : Bytes) : Bytes := le 4 b.length ++ b

/-- `create_patch_metadata_file`, tools/packer.c:219-317 (writes to the file succeed).  The counters
`nunits`, `ndeps`, `nrefs` are the lengths of the lists (tools/packer.c:347-350,812,878). -/
def packApply (p : Patch) : Bytes :=
  [1] ++ p.patchId ++ (packBuildId p.buildId ++ packStr p.name ++
    le 4 p.units.length ++ p.units.flatMap packUnit ++
    le 4 p.deps.length ++ p.deps.flatMap id ++
    le 4 p.refs.length ++ p.refs.flatMap packRef)

/-- `write_reverse_patch`, tools/packer.c:1077-1138: the name goes without terminator. -/
def packRevert (p : Patch) : Bytes :=
  [2] ++ p.patchId ++ (packBuildId p.buildId ++ (le 4 p.name.length ++ p.name))

/-! ### Inserting the path -/

/-- `PATH_MAX`. -/
def pathMax := 4096

/-- `ULP_METADATA_BUF_LEN`, include/ulp_common.h:38. -/
def bufLen := 512 * 1024

/-- `extract_ulp_from_so_to_mem`, tools/introspection.c:1891-1978, given the section and the final path
(prefix and real path of the container).  `err 0`: it returns 0, for no metadata. -/
def extract (data : Bytes) (path : Str) : Res Bytes :=
  let pathSize := path.length + 1
  if pathSize ≥ pathMax then .err 0
  else
    let metaSize := (data.length + pathSize + 4) % 2 ^ 32
    if metaSize ≥ bufLen then .err 0
    else if data.length < 33 ∨ metaSize < data.length + pathSize + 4 then .ub
    else .ok (data.take 33 ++ le 4 pathSize ++ (path ++ [0]) ++ data.drop 33)

/-- `memmove(buf + dst, buf + src, n)` in an array. -/
def memmove (buf : Bytes) (dst src n : Nat) : Bytes :=
  buf.take dst ++ (buf.drop src).take n ++ buf.drop (dst + n)

/-- `memcpy(buf + dst, bytes, ...)` in an array. -/
def memcpy (buf : Bytes) (dst : Nat) (bytes : Bytes) : Bytes :=
  buf.take dst ++ bytes ++ buf.drop (dst + bytes.length)

/-- `inject_lp_path`, lib/gdb_interface.c:47-93, on the metadata buffer.  Sizes of 2^32 and above of the
path are not modelled. -/
def injectPath (buf : Bytes) (path : Str) (metadataSize : Nat) : Res Bytes :=
  let pathSize := path.length + 1
  let pathObjectSize := 4 + pathSize
  if metadataSize + pathObjectSize > bufLen then .err ENOMEM
  else if metadataSize < 33 then .ub
  else
    let buf := memmove buf (33 + pathObjectSize) 33 (metadataSize - 33)
    let buf := memcpy buf 33 (le 4 pathSize)
    .ok (memcpy buf 37 (path ++ [0]))

end Verif.Metadata
