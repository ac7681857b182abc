import Verif.Ptrace.Model
import Verif.X86.Model
import Verif.Ppc.Model

/-!
Model of how far the tool gets with the writes for one function when it is killed amidst them, or when a request
fails: libpulp queues the writes (lib/arch/x86_64/patch.c, lib/arch/powerpc64le/patch.c), the tool executes them by
`write_bytes_ptrace` (tools/insn_queue.c:38-48), a word of 8 bytes at a time.
-/

namespace Verif.Torn

/-- Writes executed one after the other, common/insn_queue.c:91-122 with tools/insn_queue.c:38-48, up to the request at
which the tool ends: `stop w i = some j` says that it ends (being killed, or failing) at the `i`th ptrace request of the
`w`th write, when `j` bytes of its word have been written.  What the tool does when it goes on after a failed write
(the queue is decoded further at a wrong place) is not part of this model; see `Verif.InsnQueue`. -/
def execute (stop : Nat → Nat → Option Nat) : Nat → List (Nat × List UInt8) → Mem → Mem
  | _, [], m => m
  | w, (a, bs) :: ws, m =>
    match Ptrace.writeBytesPtrace (stop w) bs a m with
    | (m', 0) => execute stop (w + 1) ws m'
    | (m', _ + 1) => m'

/-- The entry of `f` being changed on x86-64, lib/arch/x86_64/patch.c:115-169; refused without a write. -/
def changeX86 (stop : Nat → Nat → Option Nat) (m : Mem) (f g : Nat) (enable : Bool) : Mem :=
  match X86.patchAddr m f g enable with
  | .error _ => m
  | .ok w => execute stop 0 [w] m

/-- The entry of `f` being changed on POWER, lib/arch/powerpc64le/patch.c:209-224; `t` are the instructions of the stub. -/
def changePpc (stop : Nat → Nat → Option Nat) (t : List UInt8) (m : Mem) (f g : Nat) (enable : Bool) : Mem :=
  execute stop 0 (Ppc.patchAddr t m f g enable).2 m

end Verif.Torn
