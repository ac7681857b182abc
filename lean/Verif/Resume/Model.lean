import Verif.Ptrace.Model
import Verif.Redirect.Model

/-!
Model of what a thread has that is not memory, from the moment a tool stops it to the moment it goes on: general registers,
vector and floating-point registers, `errno`.  The tool saves and restores registers (`get_regs`, `set_regs` of
tools/ptrace.c), and makes the main thread run routines of libpulp in between (`run_and_redirect`).  On x86_64.  Nothing goes
wrong with the requests of ptrace, and no signals arrive; for these see `Verif.Redirect` and `Verif.Hijack`.
-/

namespace Verif.Resume

/-- `struct user_regs_struct` (`registers_t`, include/arch/x86_64/arch_common.h:11); `other`: the registers not named. -/
structure Regs where
  ip : UInt64
  ax : UInt64
  orig : UInt64
  sp : UInt64
  flags : UInt64
  cx : UInt64
  r11 : UInt64
  other : Nat → UInt64

/-- A thread; `vec`: what PTRACE_GETREGS does not give (x87, SSE and AVX registers). -/
structure Thread where
  regs : Regs
  vec : Nat → Nat
  errno : Nat

/-- What the kernel does to the registers of a thread that it lets go on without a signal: Linux,
arch/x86/kernel/signal.c, `arch_do_signal_or_restart`.  A system call (`orig` is its number, not -1) that was interrupted
and is to be restarted says so with ERESTARTSYS, ERESTARTNOINTR, ERESTARTNOHAND (512 to 514) or ERESTART_RESTARTBLOCK (516);
the latter by way of `restart_syscall` (219). -/
def resume (r : Regs) : Regs :=
  if r.orig = 0 - 1 then r
  else if r.ax = 0 - 512 ∨ r.ax = 0 - 513 ∨ r.ax = 0 - 514 then { r with ax := r.orig, ip := r.ip - 2 }
  else if r.ax = 0 - 516 then { r with ax := 219, ip := r.ip - 2 }
  else r

/-- The registers that `run_and_redirect` sets, tools/ptrace.c:524-564: the second argument is the address of the routine. -/
def redirect (r : Regs) (routine : UInt64) : Regs :=
  { r with ip := routine + 2, sp := Ptrace.redirectSp 128 r.sp }

/-- A function of libpulp: what it makes of the thread that enters it, up to its return. -/
abbrev Body := Thread → Thread

/-- A thread executing a routine, lib/arch/x86_64/ulp_interface.S:40-73, which calls `body`, up to its trap; `none`: it
executes something else.  At most `fuel` instructions. -/
def exec (routine : UInt64) (body : Body) : (fuel : Nat) → Thread → Option Thread
  | 0, _ => none
  | fuel + 1, t =>
    match Redirect.routineCode 0 (t.regs.ip - routine).toNat with
    | some .nop => exec routine body fuel { t with regs := { t.regs with ip := t.regs.ip + 1 } }
    | some (.call _) =>
      -- the return address is pushed; the function returns behind the call
      let u := body { t with regs := { t.regs with sp := t.regs.sp - 8 } }
      exec routine body fuel { u with regs := { u.regs with ip := t.regs.ip + 5, sp := t.regs.sp } }
    -- a trap is no system call: `orig` is -1
    | some .int3 => some { t with regs := { t.regs with ip := t.regs.ip + 1, orig := 0 - 1 } }
    | none => none

/-- Run one routine in a stopped thread: PTRACE_SETREGS and PTRACE_CONT, tools/ptrace.c:566-574.  The registers are made from
a copy of those that were saved (tools/introspection.c:1647, 1706, 1775, 1822, tools/set_patchable.c:40). -/
def runOne (saved : Regs) (call : UInt64 × Body) (t : Thread) : Option Thread :=
  exec call.1 call.2 5 { t with regs := resume (redirect saved call.1) }

/-- Run several. -/
def runAll (saved : Regs) : List (UInt64 × Body) → Thread → Option Thread
  | [], t => some t
  | c :: cs, t =>
    match runOne saved c t with
    | none => none
    | some t => runAll saved cs t

/-- From `hijack_threads` (registers saved, tools/introspection.c:1552) to `restore_threads` (registers set and thread
detached, :1857-1861), with the routines that are run in the thread: none in any but the main thread. -/
def livePatch (calls : List (UInt64 × Body)) (t : Thread) : Option Thread :=
  match runAll t.regs calls t with
  | none => none
  | some u => some { u with regs := resume t.regs }

end Verif.Resume
