import Verif.Dsc.Model
import Verif.Metadata.Model
import Verif.Runtime.Model
import Verif.SymLoad.Model

/-!
The parts of the other models put together: from the text of a description, through `ulp packer` and `ulp trigger`,
to the functions of the process.
-/

namespace Verif.Flow

abbrev Bytes := List UInt8

/-- The C string in a buffer of the parser, which ends each with a NUL. -/
def str (b : Bytes) : Str := b.takeWhile (· != 0)

/-- The structure that `parse_metadata_from_mem` (common/common.c:251-508) fills in, as the functions of lib/ulp.c use
it. -/
def metaOf (q : Metadata.Parsed) : Runtime.Meta where
  type := q.type.toNat
  id := q.patchId
  soName := str q.soFilename
  lib := str q.name
  units := q.units.map fun u => ⟨str u.oldFname, str u.newFname, u.oldFaddr⟩
  deps := q.deps
  refs := q.refs.map fun r => ⟨str r.targetName, str r.referenceName, r.targetOffset, r.patchOffset, r.tls != 0⟩

/-- A run of `ulp packer`: the files, the patch id (`write_patch_id`, tools/packer.c:982-1076), the description, and
the path of the container as `ulp trigger` inserts it.  That the section `.ulp` or `.ulp.rev` of the container is
what the packer wrote is taken for granted here (see `Verif.Pack`). -/
structure Job where
  env : Dsc.Env
  id : Bytes
  text : Bytes
  path : Str

/-- What `ulp trigger` sends for a container: `extract_ulp_from_so_to_mem`, tools/introspection.c:1891-1978; `none` if
there is no container or it cannot be sent. -/
def Job.sent (j : Job) (revert : Bool) : Option Bytes :=
  match Dsc.describe j.env j.id j.text with
  | .ok p =>
    match Metadata.extract (if revert then Metadata.packRevert p else Metadata.packApply p) j.path with
    | .ok out => some out
    | _ => none
  | _ => none

/-- `set_metadata_buffer`, tools/introspection.c:1436-1455: the start of `__ulp_metadata_buffer` is overwritten, the
rest stays (the write succeeds). -/
def fill (buf out : Bytes) : Bytes := out ++ buf.drop out.length

/-- A process with libpulp: its state and `__ulp_metadata_buffer` (lib/ulp.c:45). -/
structure Proc where
  rt : Runtime.State
  buf : Bytes

/-- The buffer of a process at its start, and after it was parsed (`memset`, lib/ulp.c:463). -/
def blank : Bytes := List.replicate Metadata.bufLen 0

/-- What the world around libpulp answers: lookups in the loaded objects go through lib/symbol_loader.c (see
`Verif.SymLoad`); the other answers, among them those of `dlsym`, are given. -/
def worldOf (objs : List SymLoad.Obj) (prog : Str) (w : Runtime.World) : Runtime.World :=
  { w with oldSym := fun l f o => (SymLoad.getLoadedSymbolAddr objs prog l f o).1, libBase := SymLoad.baseAddr objs prog,
           tlsIdx := fun l => (SymLoad.tlsIndex objs prog l).getD (2 ^ 64 - 1) }

/-- What can be done to a process.  `c0`: the uninitialised variable of the parser. -/
inductive Act where
  | trigger (j : Job) (revert : Bool) (objs : List SymLoad.Obj) (prog : Str) (w : Runtime.World) (c0 : Bytes)
  | revertAll (objs : List SymLoad.Obj) (prog : Str) (w : Runtime.World) (lib : Str)
  | check (id : Bytes)
  | toggle

/-- The metadata in the buffer, as libpulp gets it: `parse_metadata`, lib/ulp.c:440-465. `none`: memory
error.  Allocations succeed. -/
def parsed (buf c0 : Bytes) : Option (Except Err Runtime.Meta) :=
  match Metadata.parse ⟨buf, fun _ _ => true⟩ c0 with
  | .ok (q, _) => some (.ok (metaOf q))
  | .err e => some (.error e)
  | .ub => none

/-- A request with metadata: it is written to the buffer (tools/introspection.c:1706), `__ulp_apply_patch` is run, and
the tool executes the queue.  The buffer is cleared unless the request was refused before parsing it
(lib/ulp.c:186-201). -/
def deliver (fuel : Nat) (s : Proc) (out : Bytes) (w : Runtime.World) (c0 : Bytes) : Option (Proc × Nat) :=
  match parsed (fill s.buf out) c0 with
  | none => none
  | some m =>
    match Runtime.serve fuel s.rt (.apply w m) with
    | none => none
    | some (rt, a) => some (⟨rt, if (Runtime.gate w s.rt).2.isSome then fill s.buf out else blank⟩, a)

/-- The answer if the tool gives up before anything is sent. -/
def notSent : Nat := EUNKNOWN

/-- A request whose argument stays in the buffer, `set_string_buffer` and `set_id_buffer` (tools/introspection.c:1405-1418,
1457-1461): the request is made of the buffer. -/
def ask (fuel : Nat) (s : Proc) (bytes : Bytes) (r : Bytes → Runtime.Request) : Option (Proc × Nat) :=
  (Runtime.serve fuel s.rt (r (fill s.buf bytes))).map fun x => (⟨x.1, fill s.buf bytes⟩, x.2)

/-- One action, with the answer; `none`: memory error, or libpulp does not return.  To revert all patches of a library
its name is sent (tools/introspection.c:1748-1804, lib/ulp.c:170), to check for a patch its id (lib/ulp.c:223). -/
def step (fuel : Nat) (s : Proc) : Act → Option (Proc × Nat)
  | .trigger j revert objs prog w c0 =>
    match j.sent revert with
    | none => some (s, notSent)
    | some out => deliver fuel s out (worldOf objs prog w) c0
  | .revertAll objs prog w lib =>
    if lib.length + 1 ≥ Metadata.bufLen then some (s, notSent)
    else ask fuel s (lib ++ [0]) fun b => .revertAll (worldOf objs prog w) (str b)
  | .check id => ask fuel s id fun b => .check (b.take 32)
  | .toggle => (Runtime.serve fuel s.rt .toggle).map fun x => (⟨x.1, s.buf⟩, x.2)

/-- A history of actions, with the answers. -/
def run (fuel : Nat) : Proc → List Act → Option (Proc × List Nat)
  | s, [] => some (s, [])
  | s, a :: as =>
    match step fuel s a with
    | none => none
    | some (s, r) => (run fuel s as).map fun x => (x.1, r :: x.2)

end Verif.Flow
