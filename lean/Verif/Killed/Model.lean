import Verif.Session.Model

/-!
A tool that is killed while it is at work on a process: what becomes of the threads that it has stopped, and what they see.

The kernel (ptrace(2)): if a tracer dies, its tracees are detached and go on; a tracee that was stopped for a signal takes that signal. (Linux itself seems to
forget the signal once the tracer has waited for the stop, `wait_task_stopped` in kernel/exit.c; so whether a thread takes it is a parameter.) `PTRACE_ATTACH` makes a thread stop
for `SIGSTOP`, the `int3` at the end of a routine for `SIGTRAP`. Nobody asks for `PTRACE_O_EXITKILL` (the only option set is `PTRACE_O_SUSPEND_SECCOMP`, tools/ptrace.c:476).

Not modelled here: other signals, a process that ends by itself, `SIGCONT` while the tool is alive, and failures of the tool (`Verif.Redirect`, `Verif.Hijack`, `Verif.Crowd`).
-/

namespace Verif.Killed

open Verif.Runtime (State Request)
open Verif.Session (QFault Log)
open Verif.InsnQueue (Event)

/-- The signals that matter. -/
inductive Sig where
  | stop
  | trap
deriving DecidableEq, Repr

/-- The registers of a thread: its own, or those of a routine of libpulp, with so many steps to go before the `int3` (lib/arch/x86_64/ulp_interface.S:40-73). -/
inductive Ctx where
  | own
  | routine (left : Nat)
deriving DecidableEq, Repr

/-- A thread: whether the tool traces it; whether it is stopped for the tool, and by which signal; whether a `SIGSTOP` is pending that it will stop for soon; the signal that it
takes before anything else; its registers. -/
structure Th where
  traced : Bool
  stop : Option Sig
  pend : Bool
  inj : Option Sig
  ctx : Ctx
deriving DecidableEq, Repr

/-- A thread that nobody has touched. -/
def free : Th := ⟨false, none, false, none, .own⟩

/-- The process as a whole: stopped means by `SIGSTOP`, as by job control. -/
inductive Proc where
  | going
  | stopped
  | dead
deriving DecidableEq, Repr

/-- Where the tool is: outside; stopping threads (`hijack_threads`, tools/introspection.c:1472-1616); inside, with all threads stopped; having set the registers for a routine
(tools/ptrace.c:564); waiting for the routine (:569-612); executing the queue that it found in state `s` (tools/insn_queue.c:174-212); letting threads go
(`restore_threads`, tools/introspection.c:1841-1870); killed, in the middle of the queue or not. -/
inductive Phase where
  | out
  | scan
  | inside
  | armed (r : Request)
  | waiting (r : Request)
  | writing (s : State) (f : QFault)
  | release
  | killed (middle : Bool)

/-- Whether the tool is executing a queue. -/
def Phase.isWriting : Phase → Bool
  | .writing _ _ => true
  | _ => false

/-- The process, what libpulp was asked so far, its threads, and the tool. -/
structure Conf where
  s : State
  log : Log
  proc : Proc
  th : Nat → Option Th
  phase : Phase

/-- Change one value. -/
def upd {α : Type} (f : Nat → α) (k : Nat) (v : α) : Nat → α := fun i => if i = k then v else f i

/-- A thread may execute instructions of the program. -/
def Conf.Running (c : Conf) (t : Nat) : Prop := c.proc = .going ∧ ∃ x, c.th t = some x ∧ x.stop = none ∧ x.inj = none ∧ x.ctx = .own

/-- The tracer of a thread dies; `keep`: the thread takes the signal that it was stopped for. (If it does not, and was stopped for the `int3`, then it goes on behind that:
in the next routine of lib/arch/x86_64/ulp_interface.S, which ends in an `int3` too. That it does not arrive there at once is left out.) -/
def Th.orphan (keep : Bool) (x : Th) : Th := if x.traced then { x with traced := false, stop := none, inj := if keep then x.stop else none } else x

/-- `SIGCONT`: signals that stop are dropped. -/
def Th.cont (x : Th) : Th := { x with pend := false, inj := if x.inj = some .stop then none else x.inj }

/-- The configuration after the tool was killed. -/
def Conf.kill (keep : Nat → Bool) (c : Conf) : Conf := { c with th := fun t => (c.th t).map (Th.orphan (keep t)), phase := .killed c.phase.isWriting }

/-- The configuration after somebody sent `SIGCONT`. -/
def Conf.cont (c : Conf) : Conf := { c with proc := .going, th := fun t => (c.th t).map Th.cont }

/-- Steps of threads, kernel and tool. `okR`, `okQ`: the requests that are made, and the failures in executing a queue; `mid`: states in the middle of that;
`cont`: whether somebody may send `SIGCONT` after the tool was killed; `inject`: whether every thread certainly takes the signal that it was stopped for then. -/
inductive Step (fuel main : Nat) (okR : Request → Prop) (okQ : QFault → Prop) (mid : State → QFault → State → Prop) (cont inject : Bool) : Conf → Conf → Prop
  | spawn (c : Conf) (u t : Nat) : c.Running u → c.th t = none → Step fuel main okR okQ mid cont inject c { c with th := upd c.th t (some free) }
  | exit (c : Conf) (u : Nat) : c.Running u → u ≠ main → Step fuel main okR okQ mid cont inject c { c with th := upd c.th u none }
  /-- A thread that is traced stops for the pending `SIGSTOP`. -/
  | halt (c : Conf) (t : Nat) (x : Th) : c.proc = .going → c.th t = some x → x.pend = true → x.traced = true → x.stop = none → x.inj = none →
      Step fuel main okR okQ mid cont inject c { c with th := upd c.th t (some { x with pend := false, stop := some .stop }) }
  /-- One that is not stops all threads. -/
  | haltAll (c : Conf) (t : Nat) (x : Th) : c.proc = .going → c.th t = some x → x.pend = true → x.traced = false → x.inj = none →
      Step fuel main okR okQ mid cont inject c { c with proc := .stopped, th := upd c.th t (some { x with pend := false }) }
  | takeStop (c : Conf) (t : Nat) (x : Th) : c.proc ≠ .dead → c.th t = some x → x.inj = some .stop →
      Step fuel main okR okQ mid cont inject c { c with proc := .stopped, th := upd c.th t (some { x with inj := none }) }
  | takeTrap (c : Conf) (t : Nat) (x : Th) : c.th t = some x → x.inj = some .trap →
      Step fuel main okR okQ mid cont inject c { c with proc := .dead }
  /-- A step of a routine. -/
  | exec (c : Conf) (t : Nat) (x : Th) (k : Nat) : c.proc = .going → c.th t = some x → x.stop = none → x.inj = none → x.ctx = .routine (k + 1) →
      Step fuel main okR okQ mid cont inject c { c with th := upd c.th t (some { x with ctx := .routine k }) }
  /-- The `int3` at its end. -/
  | trap (c : Conf) (t : Nat) (x : Th) : c.proc = .going → c.th t = some x → x.stop = none → x.inj = none → x.ctx = .routine 0 → x.traced = true →
      Step fuel main okR okQ mid cont inject c { c with th := upd c.th t (some { x with stop := some .trap }) }
  | trapAlone (c : Conf) (t : Nat) (x : Th) : c.proc = .going → c.th t = some x → x.stop = none → x.inj = none → x.ctx = .routine 0 → x.traced = false →
      Step fuel main okR okQ mid cont inject c { c with proc := .dead }
  | begin (c : Conf) : c.phase = .out → Step fuel main okR okQ mid cont inject c { c with phase := .scan }
  /-- `PTRACE_ATTACH`, tools/ptrace.c:398. -/
  | attach (c : Conf) (t : Nat) (x : Th) : c.phase = .scan → c.th t = some x → x.traced = false →
      Step fuel main okR okQ mid cont inject c { c with th := upd c.th t (some { x with traced := true, pend := true }) }
  | enter (c : Conf) : c.phase = .scan → (∀ t x, c.th t = some x → x.traced = true ∧ x.stop ≠ none) →
      Step fuel main okR okQ mid cont inject c { c with phase := .inside }
  /-- `PTRACE_SETREGS`, tools/ptrace.c:564, for a routine of `k` steps. -/
  | arm (c : Conf) (x : Th) (r : Request) (k : Nat) : c.phase = .inside → c.th main = some x → okR r →
      Step fuel main okR okQ mid cont inject c { c with phase := .armed r, th := upd c.th main (some { x with ctx := .routine k }) }
  /-- `PTRACE_CONT` without a signal, tools/ptrace.c:569. -/
  | go (c : Conf) (x : Th) (r : Request) : c.phase = .armed r → c.th main = some x →
      Step fuel main okR okQ mid cont inject c { c with phase := .waiting r, th := upd c.th main (some { x with stop := none }) }
  /-- The thread has stopped at the `int3`: what the routine did to libpulp's data. -/
  | answer (c : Conf) (x : Th) (r : Request) (s : State) (a : Nat) : c.phase = .waiting r → c.th main = some x → x.stop = some .trap → Session.raw fuel c.s r = some (s, a) →
      Step fuel main okR okQ mid cont inject c { c with phase := .inside, s := s, log := c.log ++ [(r, a)] }
  /-- The queue is executed after a routine has run, tools/introspection.c:1737, :1797. -/
  | write (c : Conf) (x : Th) (f : QFault) : c.phase = .inside → c.th main = some x → x.stop = some .trap → okQ f →
      Step fuel main okR okQ mid cont inject c { c with phase := .writing c.s f }
  | mid (c : Conf) (s : State) (f : QFault) (s' : State) : c.phase = .writing s f → mid s f s' → Step fuel main okR okQ mid cont inject c { c with s := s' }
  | wrote (c : Conf) (s : State) (f : QFault) (s' : State) (e : Nat) : c.phase = .writing s f → Session.interp f s = some (s', e) →
      Step fuel main okR okQ mid cont inject c { c with s := s', phase := .inside }
  /-- Through, or giving up. -/
  | leave (c : Conf) : (c.phase = .inside ∨ c.phase = .scan) → Step fuel main okR okQ mid cont inject c { c with phase := .release }
  /-- `set_regs`, tools/introspection.c:1858. -/
  | restore (c : Conf) (t : Nat) (x : Th) : c.phase = .release → c.th t = some x → x.traced = true → x.stop ≠ none →
      Step fuel main okR okQ mid cont inject c { c with th := upd c.th t (some { x with ctx := .own }) }
  /-- `detach`, tools/introspection.c:1862. -/
  | detach (c : Conf) (t : Nat) (x : Th) : c.phase = .release → c.th t = some x → x.traced = true → x.stop ≠ none → x.ctx = .own →
      Step fuel main okR okQ mid cont inject c { c with th := upd c.th t (some { x with traced := false, stop := none }) }
  | home (c : Conf) : c.phase = .release → (∀ t x, c.th t = some x → x.traced = false) → Step fuel main okR okQ mid cont inject c { c with phase := .out }
  | kill (c : Conf) (keep : Nat → Bool) : (∀ b, c.phase ≠ .killed b) → (inject = true → ∀ t, keep t = true) → Step fuel main okR okQ mid cont inject c (c.kill keep)
  | sigcont (c : Conf) (b : Bool) : cont = true → c.phase = .killed b → c.proc ≠ .dead → Step fuel main okR okQ mid cont inject c c.cont

/-- Any number of steps. -/
inductive Steps (fuel main : Nat) (okR : Request → Prop) (okQ : QFault → Prop) (mid : State → QFault → State → Prop) (cont inject : Bool) (c : Conf) : Conf → Prop
  | refl : Steps fuel main okR okQ mid cont inject c c
  | tail {d e : Conf} : Steps fuel main okR okQ mid cont inject c d → Step fuel main okR okQ mid cont inject d e → Steps fuel main okR okQ mid cont inject c e

/-- The beginning: any threads, no tool at work. -/
def start (s : State) (alive : Nat → Bool) : Conf := ⟨s, [], .going, fun t => if alive t then some free else none, .out⟩

/-- Between two writes of a queue, tools/insn_queue.c:189-200. -/
def between (s : State) (f : QFault) (s' : State) : Prop :=
  ∃ j, s' = { s with mem := ((InsnQueue.interpret (InsnQueue.fetch s.q).1 f.write).1.take j).foldl Event.apply s.mem }

end Verif.Killed
