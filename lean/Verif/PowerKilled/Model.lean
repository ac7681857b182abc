import Verif.Killed.Model
import Verif.PowerSession.Model

/-!
A tool that is killed while it is at work on a process on POWER: threads, kernel and tool as in `Verif.Killed`, libpulp as in
`Verif.Power`. `tm` are the instructions of the trampoline.

A routine ends in `trap` there (lib/arch/powerpc64le/ulp_interface.S:49, :69). A thread that goes on after it without the signal
executes it again.
-/

namespace Verif.Power.Run.Slain

open Verif.Runtime (State Request)
open Verif.Session (QFault Log)
open Verif.Killed (Sig Ctx Th free Proc Phase Conf upd)

/-- Steps of threads, kernel and tool (tools/introspection.c:1472-1870, tools/ptrace.c:500-625). `okR`, `okQ`: the requests that are made, and the failures in executing a queue; `mid`: states in the middle of that;
`cont`: whether somebody may send `SIGCONT` after the tool was killed; `inject`: whether every thread certainly takes the signal that it was stopped for then. -/
inductive Step (tm : List UInt8) (fuel main : Nat) (okR : Request → Prop) (okQ : QFault → Prop) (mid : State → QFault → State → Prop) (cont inject : Bool) : Conf → Conf → Prop
  | spawn (c : Conf) (u t : Nat) : c.Running u → c.th t = none → Step tm fuel main okR okQ mid cont inject c { c with th := upd c.th t (some free) }
  | exit (c : Conf) (u : Nat) : c.Running u → u ≠ main → Step tm fuel main okR okQ mid cont inject c { c with th := upd c.th u none }
  /-- A thread that is traced stops for the pending `SIGSTOP`. -/
  | halt (c : Conf) (t : Nat) (x : Th) : c.proc = .going → c.th t = some x → x.pend = true → x.traced = true → x.stop = none → x.inj = none →
      Step tm fuel main okR okQ mid cont inject c { c with th := upd c.th t (some { x with pend := false, stop := some .stop }) }
  /-- One that is not stops all threads. -/
  | haltAll (c : Conf) (t : Nat) (x : Th) : c.proc = .going → c.th t = some x → x.pend = true → x.traced = false → x.inj = none →
      Step tm fuel main okR okQ mid cont inject c { c with proc := .stopped, th := upd c.th t (some { x with pend := false }) }
  | takeStop (c : Conf) (t : Nat) (x : Th) : c.proc ≠ .dead → c.th t = some x → x.inj = some .stop →
      Step tm fuel main okR okQ mid cont inject c { c with proc := .stopped, th := upd c.th t (some { x with inj := none }) }
  | takeTrap (c : Conf) (t : Nat) (x : Th) : c.th t = some x → x.inj = some .trap →
      Step tm fuel main okR okQ mid cont inject c { c with proc := .dead }
  /-- A step of a routine. -/
  | exec (c : Conf) (t : Nat) (x : Th) (k : Nat) : c.proc = .going → c.th t = some x → x.stop = none → x.inj = none → x.ctx = .routine (k + 1) →
      Step tm fuel main okR okQ mid cont inject c { c with th := upd c.th t (some { x with ctx := .routine k }) }
  /-- The `trap` at its end. -/
  | trap (c : Conf) (t : Nat) (x : Th) : c.proc = .going → c.th t = some x → x.stop = none → x.inj = none → x.ctx = .routine 0 → x.traced = true →
      Step tm fuel main okR okQ mid cont inject c { c with th := upd c.th t (some { x with stop := some .trap }) }
  | trapAlone (c : Conf) (t : Nat) (x : Th) : c.proc = .going → c.th t = some x → x.stop = none → x.inj = none → x.ctx = .routine 0 → x.traced = false →
      Step tm fuel main okR okQ mid cont inject c { c with proc := .dead }
  | begin (c : Conf) : c.phase = .out → Step tm fuel main okR okQ mid cont inject c { c with phase := .scan }
  /-- `PTRACE_ATTACH`, tools/ptrace.c:398. -/
  | attach (c : Conf) (t : Nat) (x : Th) : c.phase = .scan → c.th t = some x → x.traced = false →
      Step tm fuel main okR okQ mid cont inject c { c with th := upd c.th t (some { x with traced := true, pend := true }) }
  | enter (c : Conf) : c.phase = .scan → (∀ t x, c.th t = some x → x.traced = true ∧ x.stop ≠ none) →
      Step tm fuel main okR okQ mid cont inject c { c with phase := .inside }
  /-- `PTRACE_SETREGS`, tools/ptrace.c:564, for a routine of `k` steps. -/
  | arm (c : Conf) (x : Th) (r : Request) (k : Nat) : c.phase = .inside → c.th main = some x → okR r →
      Step tm fuel main okR okQ mid cont inject c { c with phase := .armed r, th := upd c.th main (some { x with ctx := .routine k }) }
  /-- `PTRACE_CONT` without a signal, tools/ptrace.c:569. -/
  | go (c : Conf) (x : Th) (r : Request) : c.phase = .armed r → c.th main = some x →
      Step tm fuel main okR okQ mid cont inject c { c with phase := .waiting r, th := upd c.th main (some { x with stop := none }) }
  /-- The thread has stopped at the `trap`: what the routine did to libpulp's data. -/
  | answer (c : Conf) (x : Th) (r : Request) (s : State) (a : Nat) : c.phase = .waiting r → c.th main = some x → x.stop = some .trap → Run.raw tm fuel c.s r = some (s, a) →
      Step tm fuel main okR okQ mid cont inject c { c with phase := .inside, s := s, log := c.log ++ [(r, a)] }
  /-- The queue is executed after a routine has run, tools/introspection.c:1737, :1797. -/
  | write (c : Conf) (x : Th) (f : QFault) : c.phase = .inside → c.th main = some x → x.stop = some .trap → okQ f →
      Step tm fuel main okR okQ mid cont inject c { c with phase := .writing c.s f }
  | mid (c : Conf) (s : State) (f : QFault) (s' : State) : c.phase = .writing s f → mid s f s' → Step tm fuel main okR okQ mid cont inject c { c with s := s' }
  | wrote (c : Conf) (s : State) (f : QFault) (s' : State) (e : Nat) : c.phase = .writing s f → Session.interp f s = some (s', e) →
      Step tm fuel main okR okQ mid cont inject c { c with s := s', phase := .inside }
  /-- Through, or giving up. -/
  | leave (c : Conf) : (c.phase = .inside ∨ c.phase = .scan) → Step tm fuel main okR okQ mid cont inject c { c with phase := .release }
  /-- `set_regs`, tools/introspection.c:1858. -/
  | restore (c : Conf) (t : Nat) (x : Th) : c.phase = .release → c.th t = some x → x.traced = true → x.stop ≠ none →
      Step tm fuel main okR okQ mid cont inject c { c with th := upd c.th t (some { x with ctx := .own }) }
  /-- `detach`, tools/introspection.c:1862. -/
  | detach (c : Conf) (t : Nat) (x : Th) : c.phase = .release → c.th t = some x → x.traced = true → x.stop ≠ none → x.ctx = .own →
      Step tm fuel main okR okQ mid cont inject c { c with th := upd c.th t (some { x with traced := false, stop := none }) }
  | home (c : Conf) : c.phase = .release → (∀ t x, c.th t = some x → x.traced = false) → Step tm fuel main okR okQ mid cont inject c { c with phase := .out }
  | kill (c : Conf) (keep : Nat → Bool) : (∀ b, c.phase ≠ .killed b) → (inject = true → ∀ t, keep t = true) → Step tm fuel main okR okQ mid cont inject c (c.kill keep)
  | sigcont (c : Conf) (b : Bool) : cont = true → c.phase = .killed b → c.proc ≠ .dead → Step tm fuel main okR okQ mid cont inject c c.cont

/-- Any number of such steps (tools/introspection.c:1472-1870). -/
inductive Steps (tm : List UInt8) (fuel main : Nat) (okR : Request → Prop) (okQ : QFault → Prop) (mid : State → QFault → State → Prop) (cont inject : Bool) (c : Conf) : Conf → Prop
  | refl : Steps tm fuel main okR okQ mid cont inject c c
  | tail {d e : Conf} : Steps tm fuel main okR okQ mid cont inject c d → Step tm fuel main okR okQ mid cont inject d e → Steps tm fuel main okR okQ mid cont inject c e

end Verif.Power.Run.Slain
