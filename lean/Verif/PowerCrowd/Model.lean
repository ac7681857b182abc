import Verif.Crowd.Model
import Verif.PowerSession.Model

/-!
Any number of tools at work on one process on POWER at the same time, with all that can go wrong, as in `Verif.Crowd`: the tools take
the same steps, libpulp is that of `Verif.Power`. `tm` are the instructions of the trampoline.
-/

namespace Verif.Power.Throng

open Verif.Runtime (State Request)
open Verif.Session (QFault Log)
open Verif.Crowd (Act Phase Conf upd start)

/-- The process after an action that has come to its end (tools/ptrace.c:500-625, tools/insn_queue.c:174-212). -/
def actRun (tm : List UInt8) (fuel : Nat) (s : State) : Act → Option (State × Log)
  | .ask r => (Run.raw tm fuel s r).map fun x => (x.1, [(r, x.2)])
  | .queue f => (Session.interp f s).map fun x => (x.1, [])

/-- Steps of the process and of the tools (tools/introspection.c:1472-1616, :1841-1870), which take actions that are `ok`. A tool inside may do anything in any order, give up at any point, be killed at any point but in the middle of an action. -/
inductive Step (tm : List UInt8) (fuel main : Nat) (ok : Act → Prop) : Conf → Conf → Prop
  | spawn (c : Conf) (u t : Nat) : c.alive u → c.tracer u = none → ¬ c.alive t → c.tracer t = none →
      Step tm fuel main ok c { c with alive := fun v => v = t ∨ c.alive v }
  | exit (c : Conf) (u : Nat) : c.alive u → c.tracer u = none → u ≠ main →
      Step tm fuel main ok c { c with alive := fun v => v ≠ u ∧ c.alive v }
  | begin (c : Conf) (i : Nat) : c.phase i = .out → Step tm fuel main ok c { c with phase := upd c.phase i .scan }
  | attach (c : Conf) (i t : Nat) : c.phase i = .scan → c.alive t → c.tracer t = none →
      Step tm fuel main ok c { c with tracer := upd c.tracer t (some i) }
  | enter (c : Conf) (i : Nat) : c.phase i = .scan → (∀ t, c.alive t → c.tracer t = some i) →
      Step tm fuel main ok c { c with phase := upd c.phase i .inside }
  | act (c : Conf) (i : Nat) (a : Act) : c.phase i = .inside → ok a → Step tm fuel main ok c { c with phase := upd c.phase i (.busy c.s a) }
  /-- In the middle of an action the process is in any state. -/
  | mid (c : Conf) (i : Nat) (s : State) (a : Act) (s' : State) : c.phase i = .busy s a → Step tm fuel main ok c { c with s := s' }
  | done (c : Conf) (i : Nat) (s : State) (a : Act) (s' : State) (l : Log) : c.phase i = .busy s a → actRun tm fuel s a = some (s', l) →
      Step tm fuel main ok c { c with s := s', log := c.log ++ l, phase := upd c.phase i .inside }
  /-- Through, or giving up. -/
  | leave (c : Conf) (i : Nat) : (c.phase i = .inside ∨ c.phase i = .scan) → Step tm fuel main ok c { c with phase := upd c.phase i .release }
  | detach (c : Conf) (i t : Nat) : c.phase i = .release → c.tracer t = some i →
      Step tm fuel main ok c { c with tracer := upd c.tracer t none }
  | home (c : Conf) (i : Nat) : c.phase i = .release → Step tm fuel main ok c { c with phase := upd c.phase i .out }
  /-- A tool exits or is killed: the kernel detaches its threads. -/
  | die (c : Conf) (i : Nat) : (∀ s a, c.phase i ≠ .busy s a) →
      Step tm fuel main ok c { c with phase := upd c.phase i .out, tracer := fun t => if c.tracer t = some i then none else c.tracer t }

/-- Any number of such steps (tools/introspection.c:1472-1870). -/
inductive Steps (tm : List UInt8) (fuel main : Nat) (ok : Act → Prop) (c : Conf) : Conf → Prop
  | refl : Steps tm fuel main ok c c
  | tail {d e : Conf} : Steps tm fuel main ok c d → Step tm fuel main ok d e → Steps tm fuel main ok c e

end Verif.Power.Throng
