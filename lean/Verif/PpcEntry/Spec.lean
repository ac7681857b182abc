import Verif.PpcEntry.Model

/-! What functions may rely on and must keep to on POWER (ELFv2 ABI), and what a thread is to have after live patching. -/

namespace Verif.PpcEntry

/-- A function that uses the table of contents at `toc` is entered as it should be: r2 is its table of contents, and the
stack pointer is a multiple of 16. -/
def Entered (toc : Nat) (r : Regs) : Prop := r.r2 = toc ∧ r.r1 % 16 = 0

/-- A function of libpulp obeys the ABI: if entered as it should be, it returns with the stack pointer that it had, and of the
stack, which ends at `top`, it changes only what is below the stack pointer, and the 32 bytes of the header of its caller's
frame. -/
def Obeys (toc top : Nat) (f : Body) : Prop :=
  ∀ t, Entered toc t.regs → (f t).regs.r1 = t.regs.r1 ∧ ∀ i, t.regs.r1 + 32 ≤ i → i < top → (f t).mem i = t.mem i

/-- A routine of a libpulp whose table of contents is at `toc`, within reach of its instructions. -/
def Fits (toc : Nat) (c : Routine) : Prop :=
  8 ≤ c.at_ ∧ toc < 2 ^ 64 ∧ (toc : Int) = c.at_ + c.d ∧ -2 ^ 31 ≤ c.d + 0x8000 ∧ c.d + 0x8000 < 2 ^ 31

/-- A stack pointer as programs have it: there is room below it. -/
def HasStack (r : Regs) : Prop := 1024 ≤ r.r1 ∧ r.r1 < 2 ^ 64

/-- A thread that executed the system call instruction with the registers `b`, and was stopped in it, the call ending with
the error `e`: told by the bit `so` and the error in r3, or by its negative in r3. -/
def StoppedInCall (b : Regs) (e : Nat) (r : Regs) : Prop :=
  ∃ r3 so, r = { b with nip := b.nip + 4, orig3 := b.r3, way := r.way, r3 := r3, so := so } ∧
    ((r.way = .sc ∧ so = true ∧ r3 = e) ∨ (r.way = .scv ∧ e ≤ 4095 ∧ r3 = 2 ^ 64 - e))

/-- The thread is about to execute the instruction at which `b` is, with the number in r0 and the arguments of `b`. -/
def AboutToCall (b r : Regs) : Prop :=
  r.nip = b.nip ∧ r.r0 = b.r0 ∧ r.r3 = b.r3 ∧ r.r1 = b.r1 ∧ r.r2 = b.r2 ∧ r.r12 = b.r12 ∧ r.lr = b.lr ∧ r.other = b.other

end Verif.PpcEntry
