import Verif.Runtime.Model

/-!
Model of a livepatched program that loads and unloads libraries between requests (x86-64).

libpulp does not follow what the program loads and unloads: its `dlclose` (lib/interpose.c:556-570) only
counts that the call is in progress, and `__ulp_root` (lib/ulp.c:50-56) keeps the address of
every function ever replaced.  `ulp_revert_all_units` (lib/ulp.c:1224-1259) gives each such address that has a
detour of the patch, active or not, to `ulp_patch_addr`, which reads the bytes there
(lib/arch/x86_64/patch.c:115-169).
-/

namespace Verif.Unload

open Verif.Runtime

/-- The process: libpulp's state with the memory, and which addresses are mapped. -/
structure Proc where
  s : State
  mapped : Nat → Bool

/-- What happens to the process between requests, besides requests. -/
inductive Event where
  | request (r : Request)
  /-- `munmap` of `[lo, hi)`, as `dlclose` does with the last handle -/
  | unmap (lo hi : Nat)
  /-- the file contents `bytes` are mapped at `lo`, as `dlopen` does -/
  | load (lo : Nat) (bytes : List UInt8)

/-- `ulp_revert_all_units` reads the entry of a function that is not mapped, lib/ulp.c:1230-1252 and
lib/arch/x86_64/patch.c:127.  Only the first byte of the entry is looked at here: a function's entry is within
one mapping. -/
def readsUnmapped (mapped : Nat → Bool) (s : State) (id : Id) : Bool :=
  s.roots.any fun r => r.detours.any (fun d => d.id == id) && !mapped r.addr

/-- The loop of `revert_all_patches_from_lib` (lib/ulp.c:113-127, `Runtime.revertAllLoop`) comes to a
function that is not mapped. -/
def loopReads (mapped : Nat → Bool) (base : Str) : (fuel : Nat) → List Applied → State → Bool
  | _, [], _ => false
  | 0, _ :: _, _ => false
  | fuel + 1, p :: rest, s =>
    if base.take pathLen = p.lib.take pathLen then
      if canRevert s p.id ≠ 0 then false
      else readsUnmapped mapped s p.id ||
        (if (revertPatch s p.id).2 ≠ 0 then false else loopReads mapped base fuel rest (revertPatch s p.id).1)
    else loopReads mapped base fuel rest s

/-- The request makes libpulp read memory that is not mapped.  Applying reads the entries of functions
just looked up in the libraries loaded at that time (lib/ulp.c:647-655); these are taken to be mapped. -/
def crashes (fuel : Nat) (p : Proc) : Request → Bool
  | .apply w (.ok m) => match gate w p.s with
    | (_, some _) => false
    | (s, none) => m.type == 2 && canRevert s m.id == 0 && readsUnmapped p.mapped s m.id
  | .revertAll w lib => match gate w p.s with
    | (_, some _) => false
    | (s, none) => decide (basenameOff lib < pathLen) &&
        loopReads p.mapped (getBasename lib) fuel s.patches s
  | _ => false

inductive Out where
  /-- the process lives; the answers to the requests made -/
  | alive (p : Proc) (answers : List Nat)
  /-- the process got SIGSEGV inside of libpulp -/
  | crashed
  /-- libpulp does not return (`Runtime.serve`) -/
  | stuck

def step (fuel : Nat) (p : Proc) : Event → Out
  | .request r =>
    if crashes fuel p r then .crashed
    else match serve fuel p.s r with
      | none => .stuck
      | some (s, a) => .alive { p with s := s } [a]
  | .unmap lo hi => .alive { p with mapped := fun i => p.mapped i && !(decide (lo ≤ i) && decide (i < hi)) } []
  | .load lo bytes =>
    .alive { s := { p.s with mem := p.s.mem.store lo bytes },
             mapped := fun i => p.mapped i || (decide (lo ≤ i) && decide (i < lo + bytes.length)) } []

def run (fuel : Nat) (p : Proc) : List Event → Out
  | [] => .alive p []
  | e :: es => match step fuel p e with
    | .alive p as => match run fuel p es with
      | .alive p' as' => .alive p' (as ++ as')
      | o => o
    | o => o

end Verif.Unload
