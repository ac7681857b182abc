import Verif.Base.Mem
import Verif.Ptrace.Model

/-!
Model of the routines of lib/arch/powerpc64le/ulp_interface.S, which the tools make a stopped thread execute on POWER, of the
registers that `run_and_redirect` (tools/ptrace.c) gives it, and of what the kernel does to them when the thread goes on.
Nothing goes wrong with the requests of ptrace, and no signals arrive.
-/

namespace Verif.PpcEntry

/-- How a thread came into the kernel (`trap` of `struct pt_regs`): not by a system call, by the instruction `sc` (0xc00), or
by `scv` (0x3000). -/
inductive Way where
  | none | sc | scv
deriving DecidableEq, Repr

/-- `struct pt_regs` (`registers_t`, include/arch/powerpc64le/arch_common.h:35): the registers that matter here.  `so`: the
bit of the condition register that says that a system call failed; `other`: the rest, such as r4 to r11, ctr and xer. -/
structure Regs where
  nip : Nat
  r0 : Nat
  r1 : Nat
  r2 : Nat
  r3 : Nat
  r12 : Nat
  lr : Nat
  orig3 : Nat
  way : Way
  so : Bool
  other : Nat → Nat

/-- A thread and its memory. -/
structure Thread where
  regs : Regs
  mem : Mem

/-- The error with which a system call ended. -/
def Regs.error (r : Regs) : Option Nat :=
  match r.way with
  | .none => none
  | .sc => if r.so then some r.r3 else none
  | .scv => if 2 ^ 64 - 4095 ≤ r.r3 then some (2 ^ 64 - r.r3) else none

/-- What the kernel does to the registers of a thread that it lets go on without a signal: Linux,
arch/powerpc/kernel/signal.c, `check_syscall_restart`.  The errors are ERESTARTSYS, ERESTARTNOINTR, ERESTARTNOHAND and
ERESTART_RESTARTBLOCK; the number of `restart_syscall` is 0. -/
def resume (r : Regs) : Regs :=
  match r.error with
  | none => r
  | some e =>
    if e = 512 ∨ e = 513 ∨ e = 514 then { r with r3 := r.orig3, nip := r.nip - 4 }
    else if e = 516 then { r with r0 := 0, nip := r.nip - 4 }
    else r

/-- The registers that `run_and_redirect` sets, tools/ptrace.c:524-564, with RESTART_SYSCALL_SIZE 0, RED_ZONE_LEN 512 and
SET_GLOBAL_ENTRYPOINT_REG of include/arch/powerpc64le/arch_common.h:8-47. -/
def redirect (r : Regs) (routine : Nat) : Regs :=
  { r with nip := routine + 0, r12 := routine + 0, r1 := (Ptrace.redirectSp 512 (UInt64.ofNat r.r1)).toNat }

/-- The instructions of the routines. -/
inductive Insn where
  | nop
  /-- `addis 2, 12, field` -/
  | addis (field : Nat)
  /-- `addi 2, 2, field` -/
  | addi (field : Nat)
  | mflr0
  /-- `std r0, 16(r1)` -/
  | std
  /-- `stdu r1, -32(r1)` -/
  | stdu
  | bl
  /-- `addi r1, r1, 32` -/
  | pop
  /-- `ld r0, 16(r1)` -/
  | ld
  | mtlr0
  | trap
deriving DecidableEq, Repr

/-- `@ha` of the assembler: the upper half, adjusted, of a 32-bit displacement. -/
def ha (d : Int) : Nat := (((d + 0x8000) / 0x10000) % 0x10000).toNat

/-- `@l`: the lower half. -/
def lo (d : Int) : Nat := (d % 0x10000).toNat

/-- A routine, lib/arch/powerpc64le/ulp_interface.S:34-123 (the five are alike); the argument is the offset from its label,
`d` that of the table of contents. -/
def code (d : Int) : Int → Option Insn
  | -8 => some .nop
  | -4 => some .nop
  | 0 => some .nop
  | 4 => some .nop
  | 8 => some (.addis (ha d))
  | 12 => some (.addi (lo d))
  | 16 => some .mflr0
  | 20 => some .std
  | 24 => some .stdu
  | 28 => some .bl
  | 32 => some .nop
  | 36 => some .pop
  | 40 => some .ld
  | 44 => some .mtlr0
  | 48 => some .trap
  | _ => none

/-- Sign extension of a field of 16 bits. -/
def sext (field : Nat) : Int := if field < 0x8000 then field else (field : Int) - 0x10000

/-- Arithmetic of 64 bits. -/
def wrap (n : Int) : Nat := (n % 2 ^ 64).toNat

/-- A function of libpulp: what it makes of the thread that enters it, up to its return. -/
abbrev Body := Thread → Thread

/-- The next instruction. -/
def Thread.next (t : Thread) (r : Regs) : Thread := { t with regs := { r with nip := t.regs.nip + 4 } }

/-- A thread executing a routine up to its trap; `none`: it executes something else.  At most `fuel` instructions. -/
def exec (routine : Nat) (d : Int) (body : Body) : (fuel : Nat) → Thread → Option Thread
  | 0, _ => none
  | fuel + 1, t =>
    match code d ((t.regs.nip : Int) - routine) with
    | none => none
    | some .nop => exec routine d body fuel (t.next t.regs)
    | some (.addis x) => exec routine d body fuel (t.next { t.regs with r2 := wrap (t.regs.r12 + sext x * 0x10000) })
    | some (.addi x) => exec routine d body fuel (t.next { t.regs with r2 := wrap (t.regs.r2 + sext x) })
    | some .mflr0 => exec routine d body fuel (t.next { t.regs with r0 := t.regs.lr })
    | some .std => exec routine d body fuel { t.next t.regs with mem := t.mem.store (t.regs.r1 + 16) (le 8 t.regs.r0) }
    | some .stdu =>
      exec routine d body fuel
        { t.next { t.regs with r1 := t.regs.r1 - 32 } with mem := t.mem.store (t.regs.r1 - 32) (le 8 t.regs.r1) }
    | some .bl =>
      -- the function returns behind the call
      let u := body { t with regs := { t.regs with lr := t.regs.nip + 4 } }
      exec routine d body fuel { u with regs := { u.regs with nip := t.regs.nip + 4 } }
    | some .pop => exec routine d body fuel (t.next { t.regs with r1 := t.regs.r1 + 32 })
    | some .ld => exec routine d body fuel (t.next { t.regs with r0 := leVal (t.mem.load (t.regs.r1 + 16) 8) })
    | some .mtlr0 => exec routine d body fuel (t.next { t.regs with lr := t.regs.r0 })
    | some .trap => some { t with regs := { t.regs with way := .none } }

/-- A routine: where it is, the displacement of libpulp's table of contents from it, and the function it calls. -/
structure Routine where
  at_ : Nat
  d : Int
  body : Body

/-- Run one routine in a stopped thread: PTRACE_SETREGS and PTRACE_CONT, tools/ptrace.c:566-574. -/
def runOne (saved : Regs) (c : Routine) (t : Thread) : Option Thread :=
  exec c.at_ c.d c.body 20 { t with regs := resume (redirect saved c.at_) }

/-- Run several, each with a copy of the registers that were saved (tools/introspection.c:1647, 1706, 1775, 1822,
tools/set_patchable.c:40). -/
def runAll (saved : Regs) : List Routine → Thread → Option Thread
  | [], t => some t
  | c :: cs, t =>
    match runOne saved c t with
    | none => none
    | some t => runAll saved cs t

/-- From `hijack_threads` (registers saved, tools/introspection.c:1552) to `restore_threads` (registers set and thread
detached, :1857-1861). -/
def livePatch (calls : List Routine) (t : Thread) : Option Thread :=
  match runAll t.regs calls t with
  | none => none
  | some u => some { u with regs := resume t.regs }

end Verif.PpcEntry
