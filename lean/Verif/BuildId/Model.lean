import Verif.Base.Err
import Verif.Base.Str
import Verif.Base.Mem

/-!
Model of the build id checks: `compare_build_ids` of the library, and the reading of build ids and
`check_patch_sanity` of the trigger tool.
-/

namespace Verif.BuildId

abbrev Bytes := List UInt8

/-- `NT_GNU_BUILD_ID`. -/
def ntGnuBuildId := 3

/-- `BUILDID_LEN`, include/ulp_common.h. -/
def buildIdLen := 20

/-- The 32-bit word at offset `i`. -/
def u32 (b : Bytes) (i : Nat) : Nat := leVal ((b.drop i).take 4)

/-- `ALIGN(val, 4)` on `uint32_t`, lib/ulp.c:988. -/
def align4 (v : Nat) : Nat := ((v + 3) % 2 ^ 32) / 4 * 4

/-- The walk through the notes of a PT_NOTE segment in `compare_build_ids`, lib/ulp.c:996-1015: the build id
it compares with.  `seg` is what is left of the segment (`size` bytes). -/
def libWalk : (fuel : Nat) → (seg : Bytes) → Option Bytes
  | 0, _ => none
  | fuel + 1, seg =>
    if 16 ≤ seg.length then
      let namesz := u32 seg 0
      let descsz := u32 seg 4
      let type := u32 seg 8
      if type = ntGnuBuildId ∧ namesz = 4 ∧ 16 ≤ descsz then some ((seg.drop 16).take descsz)
      else libWalk fuel (seg.drop (12 + align4 namesz + align4 descsz))
    else none

/-- A loaded library: its PT_NOTE segments. -/
abbrev Lib := List Bytes

/-- `compare_build_ids` on one library, lib/ulp.c:981-1022, for a livepatch with build id `id`: whether it
ends the iteration with `build_id_check` set.  A segment shorter than its notes say is not modelled. -/
def compareBuildIds (id : Bytes) (lib : Lib) : Bool :=
  lib.any fun seg => match libWalk (seg.length + 1) seg with
    | some note => note.length == id.length && id != note
    | none => false

/-- `check_build_id`, lib/ulp.c:1033-1043: `dl_iterate_phdr` calls `compare_build_ids` for the loaded objects
until it returns 1. -/
def checkBuildId (id : Bytes) (loaded : List Lib) : Bool := loaded.any (compareBuildIds id)

/-! ### The trigger tool -/

/-- "Align with the 4 bytes boundary", tools/introspection.c:732-734. -/
def toolAlign (n : Nat) : Nat := (n + n % 4) % 2 ^ 32

/-- The walk through the notes of a segment in `parse_dynobj_elf_headers`, tools/introspection.c:704-747: the
address and the length (rounded) of the build id.  Reads of the process succeed. -/
def toolWalk (m : Mem) : (fuel : Nat) → (addr end_ : Nat) → Option (Nat × Nat)
  | 0, _, _ => none
  | fuel + 1, addr, end_ =>
    let namesz := leVal (m.load addr 4)
    let descsz := leVal (m.load (addr + 4) 4)
    let type := leVal (m.load (addr + 8) 4)
    if type = ntGnuBuildId then some (addr + 12 + toolAlign namesz, toolAlign descsz)
    else
      let next := addr + (toolAlign descsz + toolAlign namesz + 12) % 2 ^ 32
      if next < end_ then toolWalk m fuel next end_ else none

/-- The PT_NOTE segments `(address, size)` of an object in turn, until one has a build id note,
tools/introspection.c:711-747. -/
def toolFind (m : Mem) (fuel : Nat) : List (Nat × Nat) → Option (Nat × Nat)
  | [] => none
  | (addr, size) :: rest =>
    match toolWalk m fuel addr (addr + size % 2 ^ 32) with
    | some r => some r
    | none => toolFind m fuel rest

/-- The build id the tool stores for an object, tools/introspection.c:755-772; `old` is what `build_id` holds before. -/
def toolBuildId (m : Mem) (fuel : Nat) (segs : List (Nat × Nat)) (old : Bytes) : Bytes :=
  match toolFind m fuel segs with
  | some (a, len) => if len = buildIdLen then m.load a buildIdLen else old
  | none => old

/-- A loaded object as the tool knows it, tools/introspection.h:95-125. -/
structure Dynobj where
  filename : Str
  buildId : Bytes
deriving DecidableEq, Repr

/-- Result of `check_patch_sanity`. -/
inductive Sanity where
  | ret (e : Err)
  | ub
deriving DecidableEq, Repr

/-- The loop of `check_patch_sanity`, tools/introspection.c:2312-2328, and what follows; `seen` tells if `buildid`
was set.  `memcmp` reads 20 bytes of the build id of the livepatch. -/
def sanityLoop (target : Str) (id : Bytes) : List Dynobj → (seen : Bool) → Sanity
  | [], seen => .ret (if seen then EBUILDID else ENOTARGETLIB)
  | d :: ds, seen =>
    if id.length < buildIdLen then .ub
    else
      let nameMatch := getBasename d.filename == target
      let seen := seen || nameMatch
      if nameMatch && id.take buildIdLen == d.buildId then .ret 0
      else sanityLoop target id ds seen

/-- `check_patch_sanity`, tools/introspection.c:2290-2360.  `functionsMatch`: all functions of the metadata are in the
container (`check_livepatch_functions_matches_metadata`). -/
def checkPatchSanity (functionsMatch : Bool) (name : Str) (id : Bytes) (objs : List Dynobj) : Sanity :=
  if !functionsMatch then .ret EUNKNOWN
  else sanityLoop (getBasename name) id objs false

end Verif.BuildId
