import Verif.Tools.Model
import Verif.PowerSession.Model

/-!
Several tools at work on the same process on POWER at the same time, as in `Verif.Tools`: the tools take the same steps, libpulp
is that of `Verif.Power`. `tm` are the instructions of the trampoline.
-/

namespace Verif.Power.Crew

open Verif.Runtime (State Request)
open Verif.InsnQueue (Effect)
open Verif.Tools (Sec Phase Conf upd start queues)

/-- One step of a tool in its critical section (tools/introspection.c:1622-1806, tools/insn_queue.c:174-212); all ptrace requests succeed. -/
def secStep (tm : List UInt8) (fuel : Nat) (s : State) : Sec → Option (Sec × State)
  | .call r =>
    match Run.raw tm fuel s r with
    | none => some (.stuck, s)
    | some (s', a) => some (if queues r then .fetch r a else .finished r a, s')
  | .fetch r a => some (.change r a (InsnQueue.toolRun s.q (fun _ => none)).1, s)
  | .change r a [] => some (.finished r a, s)
  | .change r a (e :: es) =>
    let p := e.apply ⟨s.mem, s.q⟩
    some (.change r a es, { s with mem := p.mem, q := p.q })
  | .finished _ _ => none
  | .stuck => none

/-- Steps of the process and of the tools, as in `Verif.Tools` (tools/introspection.c:1472-1616, :1841-1870); `main` is the main thread, which stays as long as the process. `crash`: tools may be killed in their critical section.
A step shows the request and the answer when a tool leaves its critical section. -/
inductive Step (tm : List UInt8) (fuel main : Nat) (crash : Bool) : Conf → Option (Nat × Request × Nat) → Conf → Prop
  /-- A running thread starts another one. -/
  | spawn (c : Conf) (u t : Nat) : c.alive u → c.tracer u = none → ¬ c.alive t → c.tracer t = none →
      Step tm fuel main crash c none { c with alive := fun v => v = t ∨ c.alive v }
  /-- A running thread ends. -/
  | exit (c : Conf) (u : Nat) : c.alive u → c.tracer u = none → u ≠ main →
      Step tm fuel main crash c none { c with alive := fun v => v ≠ u ∧ c.alive v }
  /-- A tool starts stopping the threads. -/
  | begin (c : Conf) (i : Nat) : c.phase i = .out → Step tm fuel main crash c none { c with phase := upd c.phase i .scan }
  /-- PTRACE_ATTACH: a thread has at most one tracer. -/
  | attach (c : Conf) (i t : Nat) : c.phase i = .scan → c.alive t → c.tracer t = none →
      Step tm fuel main crash c none { c with tracer := upd c.tracer t (some i) }
  /-- Attaching a thread fails, or anything else does. -/
  | fail (c : Conf) (i : Nat) : c.phase i = .scan → Step tm fuel main crash c none { c with phase := upd c.phase i .release }
  /-- `hijack_threads` succeeds: all threads are attached (`C35`). -/
  | enter (c : Conf) (i : Nat) (r : Request) : c.phase i = .scan → (∀ t, c.alive t → c.tracer t = some i) →
      Step tm fuel main crash c none { c with phase := upd c.phase i (.crit (.call r)) }
  | work (c : Conf) (i : Nat) (k k' : Sec) (s' : State) : c.phase i = .crit k → secStep tm fuel c.s k = some (k', s') →
      Step tm fuel main crash c none { c with s := s', phase := upd c.phase i (.crit k') }
  | leave (c : Conf) (i : Nat) (r : Request) (a : Nat) : c.phase i = .crit (.finished r a) →
      Step tm fuel main crash c (some (i, r, a)) { c with phase := upd c.phase i .release }
  /-- PTRACE_DETACH. -/
  | detach (c : Conf) (i t : Nat) : c.phase i = .release → c.tracer t = some i →
      Step tm fuel main crash c none { c with tracer := upd c.tracer t none }
  /-- Through with detaching, which may have failed. -/
  | home (c : Conf) (i : Nat) : c.phase i = .release → Step tm fuel main crash c none { c with phase := upd c.phase i .out }
  /-- A tool exits or is killed: the kernel detaches its threads. -/
  | die (c : Conf) (i : Nat) : (crash = true ∨ ∀ k, c.phase i ≠ .crit k) →
      Step tm fuel main crash c none
        { c with phase := upd c.phase i .out, tracer := fun t => if c.tracer t = some i then none else c.tracer t }

/-- Any number of such steps (tools/introspection.c:1472-1870), with what they show. -/
inductive Steps (tm : List UInt8) (fuel main : Nat) (crash : Bool) (c : Conf) : List (Nat × Request × Nat) → Conf → Prop
  | refl : Steps tm fuel main crash c [] c
  | tail {l : List (Nat × Request × Nat)} {d e : Conf} {o : Option (Nat × Request × Nat)} :
      Steps tm fuel main crash c l d → Step tm fuel main crash d o e → Steps tm fuel main crash c (l ++ o.toList) e

end Verif.Power.Crew
