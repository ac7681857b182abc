import Verif.Metadata.Spec
import Verif.BuildId.Model

/-!
Model of `trigger_one_process` before it touches the process: is the queue compatible, where is the container for the process,
is the live patch fit for the process.
-/

namespace Verif.Prepare

open Metadata (Bytes)

/-- The file system as the tool sees it: `realpath`, the sections `.ulp` and `.ulp.rev` of a container (`load_elf`,
`get_elfscn_by_name`), and the symbols of a file (`parse_so_elf`). -/
structure Host where
  realpath : Str → Option Str
  ulp : Str → (revert : Bool) → Option Bytes
  symbols : Str → Option (List Str)

/-- The process: its instruction queue (`none`: libpulp has none; `some none`: its version cannot be read), whether its root
is /proc (`is_proc_chroot`, tools/introspection.c:2702-2725), and the objects it has loaded. -/
structure Target where
  queue : Option (Option Int)
  procRoot : Bool
  objs : List BuildId.Dynobj

/-- `INSNQ_CURR_VERSION`, include/insn_queue.h:32. -/
def currVersion : Int := 1

/-- `insnq_get_version`, tools/insn_queue.c:131-155, with the queue there (no version read before). -/
def queueVersion (v : Option Int) : Int := v.getD 0

/-- `insnq_check_compatibility`, tools/insn_queue.c:157-172. -/
def compatible (t : Target) : Bool :=
  match t.queue with
  | none => true
  | some v => !(queueVersion v > currVersion)

def pathMax : Nat := 4096

/-- `"/1/root/"`. -/
def procPrefix : Str := [47, 49, 47, 114, 111, 111, 116, 47]

/-- `adjust_prefix_for_chroot`, tools/introspection.c:2736-2749: `none` if the static buffer of `PATH_MAX` bytes overflows
(`strncat` adds up to `PATH_MAX` - 1 bytes and a NUL to what is there). -/
def adjustPrefix (t : Target) (userPrefix : Option Str) : Option (Option Str) :=
  if t.procRoot then
    match userPrefix with
    | none => some (some procPrefix)
    | some u =>
      let s := procPrefix ++ u.take (pathMax - 1)
      if s.length + 1 > pathMax then none else some (some s)
  else some userPrefix

/-- What comes out: an error code, or the metadata for the process and what the tool has read in it. -/
inductive Out where
  | err (e : Err)
  | ready (metadata : Bytes) (q : Metadata.Parsed)
  | ub
deriving DecidableEq, Repr

/-- The path `extract_ulp_from_so_to_mem` writes, tools/introspection.c:1915-1937; `none`: the prefix is too long. -/
def containerPath (h : Host) (prefix_ : Option Str) (container : Str) : Option Str :=
  match prefix_ with
  | some p => if p.length ≥ pathMax then none else some (p ++ (h.realpath container).getD container)
  | none => some ((h.realpath container).getD container)

/-- The units in turn, tools/introspection.c:2268-2277; `none`: a name without end is read. -/
def unitsIn (syms : List Str) : List Metadata.PUnit → Option Bool
  | [] => some true
  | u :: us =>
    match Metadata.Spec.cstring u.newFname with
    | none => none
    | some n => if n ∈ syms then unitsIn syms us else some false

/-- `check_livepatch_functions_matches_metadata`, tools/introspection.c:2240-2281: whether it returns 0. -/
def functionsMatch (h : Host) (prefix_ : Option Str) (q : Metadata.Parsed) : Option Bool :=
  match Metadata.Spec.cstring q.soFilename with
  | none => none
  | some f =>
    let p := prefix_.getD []
    if f.take p.length = p then
      match h.symbols (f.drop p.length) with
      | none => some false
      | some syms => unitsIn syms q.units
    else some false

/-- `check_patch_sanity`, tools/introspection.c:2291-2362. -/
def sanity (h : Host) (t : Target) (prefix_ : Option Str) (q : Metadata.Parsed) : BuildId.Sanity :=
  match functionsMatch h prefix_ q with
  | none => .ub
  | some m =>
    match Metadata.Spec.cstring q.name with
    | none => .ub
    | some n => BuildId.checkPatchSanity m n q.buildId t.objs

/-- `trigger_one_process` up to the loop, tools/trigger.c:86-134, with a container.  `c0`: what the variable of the parser
holds at first. -/
def prepare (h : Host) (t : Target) (userPrefix : Option Str) (container : Str) (revert : Bool) (c0 : Bytes) : Out :=
  if !compatible t then .err EOLDULP
  else
    match adjustPrefix t userPrefix with
    | none => .ub
    | some p =>
      match h.ulp container revert with
      | none => .err ENOMETA
      | some data =>
        match containerPath h p container with
        | none => .err ENOMETA
        | some path =>
          match Metadata.extract data path with
          | .ub => .ub
          | .err _ => .err ENOMETA
          | .ok out =>
            match Metadata.parse ⟨out, fun _ _ => true⟩ c0 with
            | .ub => .ub
            | .err e => .err e
            | .ok (q, _) =>
              match sanity h t p q with
              | .ub => .ub
              | .ret e => if e = 0 then .ready out q else .err e

end Verif.Prepare
