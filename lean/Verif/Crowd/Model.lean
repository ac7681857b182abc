import Verif.Session.Model

/-!
Any number of tools at work on one process at the same time, with all that can go wrong (see `Verif.Session`), tools being killed, threads of the process
running in between. `Verif.Tools` is the same without failures, and with the single steps of a tool; here an action of a tool passes through any states.
-/

namespace Verif.Crowd

open Verif.Runtime (State Request)
open Verif.Session (QFault Log)

/-- What a tool does to a stopped process: run a routine of libpulp (`run_and_redirect`, tools/ptrace.c:500-625; the request with its answer is noted),
or execute the queue (`insnq_interpret_from_process_`, tools/insn_queue.c:174-212). -/
inductive Act where
  | ask (r : Request)
  | queue (f : QFault)

/-- The process after an action that has come to its end. -/
def Act.run (fuel : Nat) (s : State) : Act → Option (State × Log)
  | .ask r => (Session.raw fuel s r).map fun x => (x.1, [(r, x.2)])
  | .queue f => (Session.interp f s).map fun x => (x.1, [])

/-- Where a tool is: outside, stopping threads (`hijack_threads`, tools/introspection.c:1472-1616), inside with all threads stopped, in the middle of an
action begun in state `s`, letting threads go (`restore_threads`, :1841-1870). -/
inductive Phase where
  | out
  | scan
  | inside
  | busy (s : State) (a : Act)
  | release

/-- A process, its threads, their tracers, the tools, and what libpulp was asked so far. -/
structure Conf where
  s : State
  log : Log
  alive : Nat → Prop
  tracer : Nat → Option Nat
  phase : Nat → Phase

/-- Change one value. -/
def upd {α : Type} (f : Nat → α) (k : Nat) (v : α) : Nat → α := fun i => if i = k then v else f i

/-- Steps of the process and of the tools, which take actions that are `ok`. A tool inside may do anything in any order, give up at any point, be killed at any point but in the middle of an action. -/
inductive Step (fuel main : Nat) (ok : Act → Prop) : Conf → Conf → Prop
  | spawn (c : Conf) (u t : Nat) : c.alive u → c.tracer u = none → ¬ c.alive t → c.tracer t = none →
      Step fuel main ok c { c with alive := fun v => v = t ∨ c.alive v }
  | exit (c : Conf) (u : Nat) : c.alive u → c.tracer u = none → u ≠ main →
      Step fuel main ok c { c with alive := fun v => v ≠ u ∧ c.alive v }
  | begin (c : Conf) (i : Nat) : c.phase i = .out → Step fuel main ok c { c with phase := upd c.phase i .scan }
  | attach (c : Conf) (i t : Nat) : c.phase i = .scan → c.alive t → c.tracer t = none →
      Step fuel main ok c { c with tracer := upd c.tracer t (some i) }
  | enter (c : Conf) (i : Nat) : c.phase i = .scan → (∀ t, c.alive t → c.tracer t = some i) →
      Step fuel main ok c { c with phase := upd c.phase i .inside }
  | act (c : Conf) (i : Nat) (a : Act) : c.phase i = .inside → ok a → Step fuel main ok c { c with phase := upd c.phase i (.busy c.s a) }
  /-- In the middle of an action the process is in any state. -/
  | mid (c : Conf) (i : Nat) (s : State) (a : Act) (s' : State) : c.phase i = .busy s a → Step fuel main ok c { c with s := s' }
  | done (c : Conf) (i : Nat) (s : State) (a : Act) (s' : State) (l : Log) : c.phase i = .busy s a → a.run fuel s = some (s', l) →
      Step fuel main ok c { c with s := s', log := c.log ++ l, phase := upd c.phase i .inside }
  /-- Through, or giving up. -/
  | leave (c : Conf) (i : Nat) : (c.phase i = .inside ∨ c.phase i = .scan) → Step fuel main ok c { c with phase := upd c.phase i .release }
  | detach (c : Conf) (i t : Nat) : c.phase i = .release → c.tracer t = some i →
      Step fuel main ok c { c with tracer := upd c.tracer t none }
  | home (c : Conf) (i : Nat) : c.phase i = .release → Step fuel main ok c { c with phase := upd c.phase i .out }
  /-- A tool exits or is killed: the kernel detaches its threads. -/
  | die (c : Conf) (i : Nat) : (∀ s a, c.phase i ≠ .busy s a) →
      Step fuel main ok c { c with phase := upd c.phase i .out, tracer := fun t => if c.tracer t = some i then none else c.tracer t }

/-- Any number of steps. -/
inductive Steps (fuel main : Nat) (ok : Act → Prop) (c : Conf) : Conf → Prop
  | refl : Steps fuel main ok c c
  | tail {d e : Conf} : Steps fuel main ok c d → Step fuel main ok d e → Steps fuel main ok c e

/-- The beginning: any threads, no tool at work. -/
def start (s : State) (alive : Nat → Prop) : Conf := ⟨s, [], alive, fun _ => none, fun _ => .out⟩

end Verif.Crowd
