import Verif.Runtime.Model
import Verif.Session.Model

/-!
Several tools at work on the same process at the same time: `ulp trigger`, `ulp check`, `ulp set_patchable`, each stopping all
threads, running a routine of libpulp, executing the queue and letting the threads go, while the process starts and ends threads.

The loops of `hijack_threads` are modelled in `Verif.Hijack`; here only its steps that others can see are: attaching a thread,
giving up, having all threads. What a tool reads before that (`Verif.Prepare`) is left out.
-/

namespace Verif.Tools

open Verif.Runtime (State Request)
open Verif.InsnQueue (Effect)

/-- Where a tool is in its critical section: about to run the routine (`apply_patch`, tools/introspection.c:1707-1741;
`revert_patches_from_lib`, :1777-1801; `patch_applied`, :1622-1664), about to read the queue, about to make changes
to the process, one write or one part of a write at a time (tools/insn_queue.c:174-212), and finished with libpulp's answer; `stuck` if the routine never ends. -/
inductive Sec where
  | call (r : Request)
  | fetch (r : Request) (answer : Nat)
  | change (r : Request) (answer : Nat) (es : List Effect)
  | finished (r : Request) (answer : Nat)
  | stuck

/-- Only applying and reverting is followed by executing the queue. -/
def queues : Request → Bool
  | .apply _ _ => true
  | .revertAll _ _ => true
  | _ => false

/-- One step of a tool in its critical section; all ptrace requests succeed. -/
def Sec.step (fuel : Nat) (s : State) : Sec → Option (Sec × State)
  | .call r =>
    match Session.raw fuel s r with
    | none => some (.stuck, s)
    | some (s', a) => some (if queues r then .fetch r a else .finished r a, s')
  | .fetch r a => some (.change r a (InsnQueue.toolRun s.q (fun _ => none)).1, s)
  | .change r a [] => some (.finished r a, s)
  | .change r a (e :: es) =>
    let p := e.apply ⟨s.mem, s.q⟩
    some (.change r a es, { s with mem := p.mem, q := p.q })
  | .finished _ _ => none
  | .stuck => none

/-- Where a tool is: outside, stopping threads (`hijack_threads`, tools/introspection.c:1472-1616), in its critical section, letting threads go
(`restore_threads`, :1841-1870, or after a failure, :1598-1611). -/
inductive Phase where
  | out
  | scan
  | crit (c : Sec)
  | release

/-- A process and all tools. The tracer of a thread is the tool that has attached it, by which it is stopped. -/
structure Conf where
  s : State
  alive : Nat → Prop
  tracer : Nat → Option Nat
  phase : Nat → Phase

/-- Change one value. -/
def upd {α : Type} (f : Nat → α) (k : Nat) (v : α) : Nat → α := fun i => if i = k then v else f i

/-- Steps of the process and of the tools; `main` is the main thread, which stays as long as the process. `crash`: tools may be killed in their critical section.
A step shows the request and the answer when a tool leaves its critical section. -/
inductive Step (fuel main : Nat) (crash : Bool) : Conf → Option (Nat × Request × Nat) → Conf → Prop
  /-- A running thread starts another one. -/
  | spawn (c : Conf) (u t : Nat) : c.alive u → c.tracer u = none → ¬ c.alive t → c.tracer t = none →
      Step fuel main crash c none { c with alive := fun v => v = t ∨ c.alive v }
  /-- A running thread ends. -/
  | exit (c : Conf) (u : Nat) : c.alive u → c.tracer u = none → u ≠ main →
      Step fuel main crash c none { c with alive := fun v => v ≠ u ∧ c.alive v }
  /-- A tool starts stopping the threads. -/
  | begin (c : Conf) (i : Nat) : c.phase i = .out → Step fuel main crash c none { c with phase := upd c.phase i .scan }
  /-- PTRACE_ATTACH: a thread has at most one tracer. -/
  | attach (c : Conf) (i t : Nat) : c.phase i = .scan → c.alive t → c.tracer t = none →
      Step fuel main crash c none { c with tracer := upd c.tracer t (some i) }
  /-- Attaching a thread fails, or anything else does. -/
  | fail (c : Conf) (i : Nat) : c.phase i = .scan → Step fuel main crash c none { c with phase := upd c.phase i .release }
  /-- `hijack_threads` succeeds: all threads are attached (`C35`). -/
  | enter (c : Conf) (i : Nat) (r : Request) : c.phase i = .scan → (∀ t, c.alive t → c.tracer t = some i) →
      Step fuel main crash c none { c with phase := upd c.phase i (.crit (.call r)) }
  | work (c : Conf) (i : Nat) (k k' : Sec) (s' : State) : c.phase i = .crit k → k.step fuel c.s = some (k', s') →
      Step fuel main crash c none { c with s := s', phase := upd c.phase i (.crit k') }
  | leave (c : Conf) (i : Nat) (r : Request) (a : Nat) : c.phase i = .crit (.finished r a) →
      Step fuel main crash c (some (i, r, a)) { c with phase := upd c.phase i .release }
  /-- PTRACE_DETACH. -/
  | detach (c : Conf) (i t : Nat) : c.phase i = .release → c.tracer t = some i →
      Step fuel main crash c none { c with tracer := upd c.tracer t none }
  /-- Through with detaching, which may have failed. -/
  | home (c : Conf) (i : Nat) : c.phase i = .release → Step fuel main crash c none { c with phase := upd c.phase i .out }
  /-- A tool exits or is killed: the kernel detaches its threads. -/
  | die (c : Conf) (i : Nat) : (crash = true ∨ ∀ k, c.phase i ≠ .crit k) →
      Step fuel main crash c none
        { c with phase := upd c.phase i .out, tracer := fun t => if c.tracer t = some i then none else c.tracer t }

/-- Any number of steps, with what they show. -/
inductive Steps (fuel main : Nat) (crash : Bool) (c : Conf) : List (Nat × Request × Nat) → Conf → Prop
  | refl : Steps fuel main crash c [] c
  | tail {l : List (Nat × Request × Nat)} {d e : Conf} {o : Option (Nat × Request × Nat)} :
      Steps fuel main crash c l d → Step fuel main crash d o e → Steps fuel main crash c (l ++ o.toList) e

/-- The beginning: any threads, no tool at work. -/
def start (s : State) (alive : Nat → Prop) : Conf := ⟨s, alive, fun _ => none, fun _ => .out⟩

end Verif.Tools
