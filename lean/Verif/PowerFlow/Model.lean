import Verif.Flow.Model
import Verif.Power.Model

/-!
`Verif.Flow` for POWER: from the text of a description, through `ulp packer` and `ulp trigger`, to the functions of a
process on POWER.  The tools and the reading of the metadata are those of `Verif.Flow`; what libpulp does with it is that
of `Verif.Power`.  `t` are the 44 bytes of instructions of `ulp_prologue` (lib/arch/powerpc64le/ulp_prologue.S).
-/

namespace Verif.PowerFlow

open Verif.Flow (Bytes Proc Act parsed fill blank notSent worldOf str)

/-- A request with metadata: it is written to the buffer (tools/introspection.c:1706), `__ulp_apply_patch`
(lib/ulp.c:181-212) is run, and the tool executes the queue.  The buffer is cleared unless the request was refused
before parsing it (lib/ulp.c:186-201). -/
def deliver (t : Bytes) (fuel : Nat) (s : Proc) (out : Bytes) (w : Runtime.World) (c0 : Bytes) : Option (Proc × Nat) :=
  match parsed (fill s.buf out) c0 with
  | none => none
  | some m =>
    match Power.serve t fuel s.rt (.apply w m) with
    | none => none
    | some (rt, a) => some (⟨rt, if (Runtime.gate w s.rt).2.isSome then fill s.buf out else blank⟩, a)

/-- A request whose argument stays in the buffer, `set_string_buffer` and `set_id_buffer` (tools/introspection.c:1405-1418,
1457-1461): the request is made of the buffer. -/
def ask (t : Bytes) (fuel : Nat) (s : Proc) (bytes : Bytes) (r : Bytes → Runtime.Request) : Option (Proc × Nat) :=
  (Power.serve t fuel s.rt (r (fill s.buf bytes))).map fun x => (⟨x.1, fill s.buf bytes⟩, x.2)

/-- One action, with the answer; `none`: memory error, or libpulp does not return.  To revert all patches of a library
its name is sent (tools/introspection.c:1748-1804, lib/ulp.c:170), to check for a patch its id (lib/ulp.c:223). -/
def step (t : Bytes) (fuel : Nat) (s : Proc) : Act → Option (Proc × Nat)
  | .trigger j revert objs prog w c0 =>
    match j.sent revert with
    | none => some (s, notSent)
    | some out => deliver t fuel s out (worldOf objs prog w) c0
  | .revertAll objs prog w lib =>
    if lib.length + 1 ≥ Metadata.bufLen then some (s, notSent)
    else ask t fuel s (lib ++ [0]) fun b => .revertAll (worldOf objs prog w) (str b)
  | .check id => ask t fuel s id fun b => .check (b.take 32)
  | .toggle => (Power.serve t fuel s.rt .toggle).map fun x => (⟨x.1, s.buf⟩, x.2)

/-- A history of actions, with the answers. -/
def run (t : Bytes) (fuel : Nat) : Proc → List Act → Option (Proc × List Nat)
  | s, [] => some (s, [])
  | s, a :: as =>
    match step t fuel s a with
    | none => none
    | some (s, r) => (run t fuel s as).map fun x => (x.1, r :: x.2)

end Verif.PowerFlow
