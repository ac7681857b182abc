import Verif.Base.Err

/-!
Model of how a tool runs a routine of libpulp in a stopped thread: `run_and_redirect` and `attach` of tools/ptrace.c,
`restore_threads` and the end of `apply_patch` of tools/introspection.c, the routines of
lib/arch/x86_64/ulp_interface.S, and what the kernel does with signals of a traced thread.
-/

namespace Verif.Redirect

/-! ### The waiting loop -/

/-- `WIFEXITED`, `WCOREDUMP` and `WIFSTOPPED` of `<sys/wait.h>`. -/
def wifexited (status : Nat) : Bool := status % 128 == 0
def wcoredump (status : Nat) : Bool := status / 128 % 2 == 1
def wifstopped (status : Nat) : Bool := status % 256 == 127

/-- What `waitpid(pid, &status, WNOHANG | WSTOPPED)` returns: -1, 0, another pid, or `pid` with a status. -/
inductive Poll where
  | error
  | nothing
  | other
  | self (status : Nat)
deriving DecidableEq, Repr

/-- Why the loop ended. -/
inductive Waited where
  | stopped
  | timeout
  | failed
deriving DecidableEq, Repr

/-- The loop of `run_and_redirect`, tools/ptrace.c:574-612. Each entry is one round: what `waitpid` returned, and the
seconds since the start that are read at its end. `none`: the entries are used up and the loop still goes on. -/
def waitLoop (timeout : Nat) : List (Poll × Nat) → Option Waited
  | [] => none
  | (p, t) :: ps =>
    let next := if t < timeout then waitLoop timeout ps else some .timeout
    match p with
    | .error => some .failed
    | .self st =>
      if wifexited st || wcoredump st then some .failed
      else if wifstopped st then some .stopped
      else next
    | .nothing => next
    | .other => next

/-- `run_and_redirect`, tools/ptrace.c:500-625, as far as its result goes: `setregs`, `cont` and `getregs` say whether
these requests succeed. -/
def runAndRedirect (setregs cont getregs : Bool) (timeout : Nat) (polls : List (Poll × Nat)) : Option Int :=
  if !setregs then some ETARGETHOOK
  else if !cont then some ETARGETHOOK
  else match waitLoop timeout polls with
    | none => none
    | some .failed => some EUNKNOWN
    | some .timeout => some ETIME
    | some .stopped => if getregs then some 0 else some (-1)

/-- The end of `apply_patch`, tools/introspection.c:1718-1744, after `run_and_redirect` returned 0. `rax0` is the return
register of the thread when it was hijacked (:1709), `rax` the one read after the stop, `interpret` the result of
interpreting the queue. The flag says whether the queue is interpreted. (The return value is a C `int`; error codes
fit.) -/
def applyReport (rax0 rax : Nat) (interpret : Int) : Int × Bool :=
  if rax ≠ 0 ∧ rax ≠ EAGAIN ∧ rax = rax0 then (EHOOKNOTRUN, false)
  else if interpret ≠ 0 ∧ interpret ≠ EOLDLIBPULP then (interpret, true)
  else (rax, true)

/-! ### The routine

`nop; nop; call f; int3`, lib/arch/x86_64/ulp_interface.S:40-73. -/

inductive Insn where
  | nop
  | call (f : Nat)
  | int3
deriving DecidableEq, Repr

/-- The instructions at offsets 0, 1, 2 and 7 of a routine (the call has 5 bytes). -/
def routineCode (f : Nat) : Nat → Option Insn
  | 0 => some .nop
  | 1 => some .nop
  | 2 => some (.call f)
  | 7 => some .int3
  | _ => none

/-- Effect of executing one instruction of a routine: the new offset, and the function called if any; `none` if there is
no instruction (the offset is inside another one) or it is the trap. -/
def routineStep (f : Nat) (off : Nat) : Option (Nat × Option Nat) :=
  match routineCode f off with
  | some .nop => some (off + 1, none)
  | some (.call g) => some (off + 5, some g)
  | _ => none

/-- Run up to `fuel` instructions from an offset: the offset reached and the functions called. -/
def routineRun (f : Nat) : (fuel off : Nat) → Nat × List Nat
  | 0, off => (off, [])
  | fuel + 1, off => match routineStep f off with
    | none => (off, [])
    | some (off', g) => let (o, gs) := routineRun f fuel off'; (o, g.toList ++ gs)

/-- The program counter that the thread starts with: tools/ptrace.c:525 sets routine + 2, and the kernel subtracts 2 if a
system call was interrupted and is to be restarted. -/
def startOffset (restart : Bool) : Nat := if restart then 2 - 2 else 2

/-! ### Thread, kernel and tool -/

/-- Where the thread is: in its own code, or in the routine after `k` of its steps. -/
inductive Ctx where
  | own
  | routine (k : Nat)
deriving DecidableEq, Repr

inductive Run where
  | running
  | stopped (sig : Nat)
  | dead
deriving DecidableEq, Repr

/-- What the tool got from `run_and_redirect`. -/
inductive Outcome where
  | ok (rax : Nat)
  | time
deriving DecidableEq, Repr

inductive Tool where
  | idle
  /-- In `attach`, tools/ptrace.c:393-435. -/
  | attaching
  | attached
  /-- In the loop of `run_and_redirect`. -/
  | waiting
  | got (o : Outcome)
  /-- After `restore_threads`; whether it succeeded. -/
  | released (ok : Bool)
  | exited
deriving DecidableEq, Repr

structure St where
  traced : Bool
  run : Run
  ctx : Ctx
  tool : Tool
  /-- Signals sent to the thread (not counting the tool's), those not yet taken, and those that reached it. -/
  sent : List Nat
  pend : List Nat
  delivered : List Nat
deriving DecidableEq, Repr

def SIGTRAP : Nat := 5
def SIGSTOP : Nat := 19

/-- The thread about to be hijacked. -/
def start : St := ⟨false, .running, .own, .idle, [], [], []⟩

/-- A routine of `n` steps; `val k` is the return register after `k` steps, `val 0` the one the thread was hijacked
with. -/
structure Routine where
  n : Nat
  val : Nat → Nat

/-- The return register in a context (in its own code the thread is stopped with `val 0`). -/
def Routine.rax (r : Routine) : Ctx → Nat
  | .own => r.val 0
  | .routine k => r.val k

/-- The kernel takes the pending signal with the lowest number first. -/
def Next (s : Nat) (pend : List Nat) : Prop := s ∈ pend ∧ ∀ x ∈ pend, s ≤ x

/-- One step of thread, kernel or tool. With `quiet`, signals are only sent while the tool does not trace the thread, and
it attaches while none is pending. -/
inductive Step (r : Routine) (quiet : Bool) : St → St → Prop
  /-- Somebody sends a signal (other than `SIGKILL`). -/
  | arrive (st : St) (s : Nat) (hr : st.run ≠ .dead) (hs : 1 ≤ s ∧ s ≠ 9) (hq : quiet = true → st.traced = false) :
      Step r quiet st { st with sent := s :: st.sent, pend := s :: st.pend }
  /-- Not traced: a signal is delivered (a handler runs, or it is ignored). -/
  | deliver (st : St) (s : Nat) (ht : st.traced = false) (hr : st.run = .running) (hn : Next s st.pend) :
      Step r quiet st { st with pend := st.pend.erase s, delivered := s :: st.delivered }
  /-- `PTRACE_ATTACH`, tools/ptrace.c:398: the kernel sends `SIGSTOP`. -/
  | attach (st : St) (hi : st.tool = .idle) (hr : st.run = .running) (hq : quiet = true → st.pend = []) :
      Step r quiet st { st with tool := .attaching, traced := true, pend := SIGSTOP :: st.pend }
  /-- Traced: before a signal is delivered the thread stops, and the tracer decides. -/
  | signalStop (st : St) (s : Nat) (ht : st.traced = true) (hr : st.run = .running) (hn : Next s st.pend) :
      Step r quiet st { st with run := .stopped s, pend := st.pend.erase s }
  /-- `attach` takes the first stop, tools/ptrace.c:404-416. -/
  | seen (st : St) (s : Nat) (hi : st.tool = .attaching) (hr : st.run = .stopped s) :
      Step r quiet st { st with tool := .attached }
  /-- `PTRACE_SETREGS` and `PTRACE_CONT` without a signal, tools/ptrace.c:564-572. -/
  | redirect (st : St) (s : Nat) (hi : st.tool = .attached) (hr : st.run = .stopped s) :
      Step r quiet st { st with tool := .waiting, run := .running, ctx := .routine 0 }
  /-- A step of the routine; the kernel takes all pending signals before it lets the thread run. -/
  | exec (st : St) (k : Nat) (hr : st.run = .running) (hp : st.pend = []) (hc : st.ctx = .routine k) (hk : k < r.n) :
      Step r quiet st { st with ctx := .routine (k + 1) }
  /-- The `int3` at the end of the routine: the thread stops, or dies if nobody traces it. -/
  | trap (st : St) (hr : st.run = .running) (hp : st.pend = []) (hc : st.ctx = .routine r.n) :
      Step r quiet st { st with run := if st.traced then .stopped SIGTRAP else .dead }
  /-- The waiting loop sees that the thread has stopped, tools/ptrace.c:598-601, 619. -/
  | stopSeen (st : St) (s : Nat) (hi : st.tool = .waiting) (hr : st.run = .stopped s) :
      Step r quiet st { st with tool := .got (.ok (r.rax st.ctx)) }
  /-- The waiting loop gives up, tools/ptrace.c:614-616. -/
  | timeout (st : St) (hi : st.tool = .waiting) (hr : st.run = .running) :
      Step r quiet st { st with tool := .got .time }
  /-- `restore_threads` on the stopped thread, tools/introspection.c:1842-1872: `PTRACE_SETREGS` and `PTRACE_DETACH`
  without a signal. -/
  | restore (st : St) (o : Outcome) (s : Nat) (hi : st.tool = .got o) (hr : st.run = .stopped s) :
      Step r quiet st { st with tool := .released true, traced := false, run := .running, ctx := .own }
  /-- `restore_threads` on a running thread: both requests fail with `ESRCH`. -/
  | restoreFail (st : St) (o : Outcome) (hi : st.tool = .got o) (hr : st.run = .running) :
      Step r quiet st { st with tool := .released false }
  /-- The tool ends; a running thread that it still traced is not traced any more. -/
  | exitRunning (st : St) (b : Bool) (hi : st.tool = .released b) (hr : st.run = .running) :
      Step r quiet st { st with tool := .exited, traced := false }
  /-- The tool ends while a thread it still traces is stopped: the thread gets the signal it stopped for, and dies of the
  trap. -/
  | exitStopped (st : St) (b : Bool) (s : Nat) (hi : st.tool = .released b) (hr : st.run = .stopped s) :
      Step r quiet st { st with tool := .exited, traced := false,
                                run := if st.ctx = .routine r.n ∧ s = SIGTRAP then .dead else .running,
                                delivered := s :: st.delivered }

inductive Steps (r : Routine) (quiet : Bool) (st : St) : St → Prop
  | refl : Steps r quiet st st
  | tail {a b : St} : Steps r quiet st a → Step r quiet a b → Steps r quiet st b

end Verif.Redirect
