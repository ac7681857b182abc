import Verif.Power.Model
import Verif.Unload.Model

/-!
A livepatched program on POWER that loads and unloads libraries between requests, as in `Verif.Unload`: libpulp follows neither, and
`ulp_revert_all_units` (lib/ulp.c:1224-1259) gives each address that ever had a detour of the patch to `ulp_patch_addr`, which reads the
bytes there (`get_branch_offset`, lib/arch/powerpc64le/patch.c:117-143).  `tm` are the instructions of the trampoline.
-/

namespace Verif.Power.Gone

open Verif.Runtime
open Verif.Unload (Proc Event Out readsUnmapped)

/-- The loop of `revert_all_patches_from_lib` (lib/ulp.c:113-127, `Power.revertAllLoop`) comes to a
function that is not mapped. -/
def loopReads (tm : List UInt8) (mapped : Nat → Bool) (base : Str) : (fuel : Nat) → List Applied → State → Bool
  | _, [], _ => false
  | 0, _ :: _, _ => false
  | fuel + 1, p :: rest, s =>
    if base.take pathLen = p.lib.take pathLen then
      if canRevert s p.id ≠ 0 then false
      else readsUnmapped mapped s p.id ||
        (if (revertPatch tm s p.id).2 ≠ 0 then false else loopReads tm mapped base fuel rest (revertPatch tm s p.id).1)
    else loopReads tm mapped base fuel rest s

/-- The request makes libpulp read memory that is not mapped.  Applying reads the entries of functions
just looked up in the libraries loaded at that time (lib/ulp.c:647-655); these are taken to be mapped. -/
def crashes (tm : List UInt8) (fuel : Nat) (p : Proc) : Request → Bool
  | .apply w (.ok m) => match gate w p.s with
    | (_, some _) => false
    | (s, none) => m.type == 2 && canRevert s m.id == 0 && readsUnmapped p.mapped s m.id
  | .revertAll w lib => match gate w p.s with
    | (_, some _) => false
    | (s, none) => decide (basenameOff lib < pathLen) &&
        loopReads tm p.mapped (getBasename lib) fuel s.patches s
  | _ => false

/-- What an event does (lib/ulp.c:97-228 for requests; lib/interpose.c:556-570: libpulp does not follow the program). -/
def step (tm : List UInt8) (fuel : Nat) (p : Proc) : Event → Out
  | .request r =>
    if crashes tm fuel p r then .crashed
    else match serve tm fuel p.s r with
      | none => .stuck
      | some (s, a) => .alive { p with s := s } [a]
  | .unmap lo hi => .alive { p with mapped := fun i => p.mapped i && !(decide (lo ≤ i) && decide (i < hi)) } []
  | .load lo bytes =>
    .alive { s := { p.s with mem := p.s.mem.store lo bytes },
             mapped := fun i => p.mapped i || (decide (lo ≤ i) && decide (i < lo + bytes.length)) } []

/-- What events do, one after the other (as `step`, lib/ulp.c:97-228). -/
def run (tm : List UInt8) (fuel : Nat) (p : Proc) : List Event → Out
  | [] => .alive p []
  | e :: es => match step tm fuel p e with
    | .alive p as => match run tm fuel p es with
      | .alive p' as' => .alive p' (as ++ as')
      | o => o
    | o => o

end Verif.Power.Gone
