import Verif.Resume.Model

/-! What is meant by a system call in which a thread waits, by registers being kept, and by a function being entered as the
calling convention requires. -/

namespace Verif.Resume

/-- A thread that executed the system call instruction with the registers `b` (the instruction has two bytes, and spoils
`rcx` and `r11`), and was stopped in it, the call ending with the error `e`. -/
def StoppedInCall (b : Regs) (e : UInt64) (r : Regs) : Prop :=
  r = { b with orig := b.ax, ax := 0 - e, ip := b.ip + 2, cx := b.ip + 2, r11 := b.flags }

/-- The thread is about to execute the instruction at which `b` is, with the system call number `nr` and the arguments of
`b`. -/
def AboutToCall (b : Regs) (nr : UInt64) (r : Regs) : Prop :=
  r.ip = b.ip ∧ r.ax = nr ∧ r.sp = b.sp ∧ r.flags = b.flags ∧ r.other = b.other

/-- The thread sees the call fail with the error `e`. -/
def SeesError (b : Regs) (e : UInt64) (r : Regs) : Prop :=
  r.ip = b.ip + 2 ∧ r.ax = 0 - e ∧ r.sp = b.sp ∧ r.flags = b.flags ∧ r.other = b.other

/-- The number of a system call, rather than -1. -/
def IsCall (n : UInt64) : Prop := n ≠ 0 - 1

/-- The direction flag, the tenth bit of the flags. -/
def directionFlag (r : Regs) : Bool := (r.flags >>> 10) &&& 1 == 1

/-- The calling convention of AMD64 at the entry of a function: the stack is aligned, for the widest of vectors, and the
direction flag is clear. -/
def EnteredWell (r : Regs) : Prop := (r.sp + 8).toNat % 64 = 0 ∧ directionFlag r = false

end Verif.Resume
