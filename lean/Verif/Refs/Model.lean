import Verif.Torn.Model
import Verif.Runtime.Model

/-!
The references of a livepatch being written, a word of 8 bytes at a time, up to the request at which the tool ends
(killed, or failing).  The order is that of the livepatch's references, lib/ulp.c:719-750.
-/

namespace Verif.Refs

open Verif.Runtime (World RefM)

/-- Where a reference is stored, lib/ulp.c:722-736.  That no symbol is found (:729-731) is not part of this model; then nothing
further is queued, see `Runtime.applyRefs`. -/
def place (w : World) (so : Nat) (r : RefM) : Nat :=
  if r.patchOff = 0 then w.newSym r.refName else (so + r.patchOff) % 2 ^ 64

/-- What is stored, lib/ulp.c:738-748: an address of 8 bytes or, for a thread-local variable, module and offset, 8 bytes each, in
one write.  `dtv` is `TLS_DTV_OFFSET` (include/arch/x86_64/arch_common.h:8, include/arch/powerpc64le/arch_common.h:5). -/
def content (dtv base idx : Nat) (r : RefM) : List UInt8 :=
  if r.tls then le 8 idx ++ le 8 (r.targetOff + (2 ^ 64 - dtv)) else le 8 (base + r.targetOff)

/-- The writes of all references, lib/ulp.c:719-750. -/
def writes (dtv : Nat) (w : World) (base idx so : Nat) (refs : List RefM) : List (Nat × List UInt8) :=
  refs.map fun r => (place w so r, content dtv base idx r)

/-- The memory when the tool has ended, tools/insn_queue.c:38-48. -/
def set (stop : Nat → Nat → Option Nat) (dtv : Nat) (w : World) (base idx so : Nat) (refs : List RefM) (m : Mem) : Mem :=
  Torn.execute stop 0 (writes dtv w base idx so refs) m

end Verif.Refs
