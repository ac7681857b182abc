import Verif.Runtime.Model
import Verif.Power.Model

/-!
The process while the tool executes libpulp's queue, between two writes.  The order of the writes is that in which
`ulp_apply_all_units` (lib/ulp.c:634-753) queues them: the entries of all functions (:647-679), then the references (:719-750).
-/

namespace Verif.Early

/-- The memory when the tool has made the first `k` changes to the process: the writes of the queue in order, then the
resetting of the queue (tools/insn_queue.c:172-209); `s` is the process when libpulp has answered. -/
def partly (s : Runtime.State) (k : Nat) : Mem :=
  (InsnQueue.applyEffects ⟨s.mem, s.q⟩ ((InsnQueue.toolRun s.q (fun _ => none)).1.take k)).mem

end Verif.Early
