import Verif.Power.Spec
import Verif.Power.Model

/-!
A thread of a process on POWER that is just entering a function while live patches come and go; see `Verif.Midway` for
x86-64.  The tool stops every thread before it lets libpulp work and lets them run again afterwards, so a thread is stopped
between two instructions, for any number of requests, and goes on in the memory as it is then.
-/

namespace Verif.PpcMidway

open Verif.Runtime (State Request)
open Verif.Runtime.Spec (Patch track)
open Power.Spec (entryOff Fits)

/-- Where a thread is that has called `f`: at the instruction `i` of the two that set up the TOC pointer; at the NOP of `f`, or the branch in
its place; at the instruction `k` of the stub; at the first or second instruction of `trampoline_routine`; done: it goes to `g`. -/
inductive Place where
  | toc (i : Nat)
  | entry
  | stub (k : Nat)
  | mflr
  | ld
  | done (g : Nat)
deriving DecidableEq, Repr

/-- Where the call begins: `off` is the distance of the NOP from the address of `f`. -/
def first (off : Nat) : Place := if off = 0 then .entry else .toc 0

/-- One instruction of the thread, in memory `m`; `m₀` is the memory before livepatching, `t` the instructions of `ulp_prologue`.
* The instructions setting up the TOC pointer, and those of the stub, lib/arch/powerpc64le/ulp_prologue.S:250-275, are executed as they are
  meant to be only if they are at their place; the last one, `bctr`, goes to `trampoline_routine`, :46.  What they do with
  the registers is in `Verif.Ppc.Machine`.
* `trampoline_routine` gets the address in the stub into r6, :51, and loads the address of the function from the stub, :52; from
  there on it does not look at the stub again. -/
def next (t : List UInt8) (m₀ m : Mem) (f : Nat) : Place → Option Place
  | .toc i =>
    if m.load (f + 4 * i) 4 = m₀.load (f + 4 * i) 4 then some (if i = 0 then .toc 1 else .entry) else none
  | .entry =>
    match Ppc.Spec.step m (f + entryOff m₀ f) with
    | none => none
    | some p =>
      if p = (f : Int) + entryOff m₀ f + 4 then some (.done (f + entryOff m₀ f + 4))
      else if p = (f : Int) - 52 then some (.stub 0)
      else none
  | .stub k =>
    if m.load (f - 52 + 4 * k) 4 = (t.drop (4 * k)).take 4 then some (if k < 10 then .stub (k + 1) else .mflr) else none
  | .mflr => some .ld
  | .ld => some (.done (leVal (m.load (f - 8) 8)))
  | .done _ => none

/-- A thread that has called `f`, in a process with image `m₀`.  `s`, `ps`: state of the process and bookkeeping of the user; `pl`: where
the thread is; `n`: instructions it has executed since the call; `ms`: the bookkeeping at all moments since the call, newest first.
* `start`: the call has just been made.
* `request`: the thread is stopped, a request is served (libpulp and the tool), and the thread is continued where it was,
  tools/introspection.c:1842-1870.
* `step`: the thread executes one instruction. -/
inductive Call (t : List UInt8) (fuel : Nat) (m₀ : Mem) (F slot : Nat → Prop) (f : Nat) (s₀ : State) (ps₀ : List Patch) :
    State → List Patch → Place → (n : Nat) → (ms : List (List Patch)) → Prop where
  | start : Call t fuel m₀ F slot f s₀ ps₀ s₀ ps₀ (first (entryOff m₀ f)) 0 [ps₀]
  | request {s ps pl n ms r s' a} (h : Call t fuel m₀ F slot f s₀ ps₀ s ps pl n ms) (hr : Fits F slot r)
      (hs : Power.serve t fuel s r = some (s', a)) : Call t fuel m₀ F slot f s₀ ps₀ s' (track ps r a) pl n (track ps r a :: ms)
  | step {s ps pl n ms pl'} (h : Call t fuel m₀ F slot f s₀ ps₀ s ps pl n ms) (hs : next t m₀ s.mem f pl = some pl') :
      Call t fuel m₀ F slot f s₀ ps₀ s ps pl' (n + 1) ms

end Verif.PpcMidway
