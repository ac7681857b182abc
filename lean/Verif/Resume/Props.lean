import Verif.Resume.Lemmas

namespace Verif.Resume

/-! ### C192 -/

/-- **C192** (part: for system calls that the kernel restarts.) A thread that waits in such a call makes the same call, with
the same arguments, again after any number of routines were run in it. -/
theorem C192_goes_on_partial (calls : List (UInt64 × Body)) (b : Regs) (e : UInt64) (t : Thread) (hb : IsCall b.ax)
    (he : e = 512 ∨ e = 513 ∨ e = 514) (ht : StoppedInCall b e t.regs) :
    ∃ u, livePatch calls t = some u ∧ AboutToCall b b.ax u.regs := by
  obtain ⟨u, hu, hr⟩ := livePatch_regs calls t
  refine ⟨u, hu, ?_⟩
  unfold StoppedInCall at ht
  unfold IsCall at hb
  have h2 : (0 : UInt64) - e = 0 - 512 ∨ (0 : UInt64) - e = 0 - 513 ∨ (0 : UInt64) - e = 0 - 514 := by
    rcases he with h | h | h <;> simp [h]
  rw [hr, ht, resume]
  simp only [hb, h2, if_true, if_false]
  exact ⟨by grind, rfl, rfl, rfl, rfl⟩

/-- **C192** (part: likewise.) Calls with a time out, such as `nanosleep` and `poll`, go on by way of `restart_syscall`,
which the thread calls in place of its own. -/
theorem C192_goes_on_by_restart_partial (calls : List (UInt64 × Body)) (b : Regs) (t : Thread) (hb : IsCall b.ax)
    (ht : StoppedInCall b 516 t.regs) : ∃ u, livePatch calls t = some u ∧ AboutToCall b 219 u.regs := by
  obtain ⟨u, hu, hr⟩ := livePatch_regs calls t
  refine ⟨u, hu, ?_⟩
  unfold StoppedInCall at ht
  unfold IsCall at hb
  have h2 : ¬ ((0 : UInt64) - 516 = 0 - 512 ∨ (0 : UInt64) - 516 = 0 - 513 ∨ (0 : UInt64) - 516 = 0 - 514) := by decide
  rw [hr, ht, resume]
  simp only [hb, h2, if_true, if_false]
  exact ⟨by grind, rfl, rfl, rfl, rfl⟩

/-- **C192** (the negation, for every other call.) A call that the kernel does not restart, such as `epoll_wait`, whose error
is EINTR (4), has failed, as the thread sees; it did nothing to be interrupted. -/
theorem C192_sees_error (calls : List (UInt64 × Body)) (b : Regs) (e : UInt64) (t : Thread)
    (he : e ≠ 512 ∧ e ≠ 513 ∧ e ≠ 514 ∧ e ≠ 516) (ht : StoppedInCall b e t.regs) :
    ∃ u, livePatch calls t = some u ∧ SeesError b e u.regs := by
  obtain ⟨u, hu, hr⟩ := livePatch_regs calls t
  refine ⟨u, hu, ?_⟩
  unfold StoppedInCall at ht
  have h : resume t.regs = t.regs := by
    rw [ht, resume]
    have h2 : ¬ ((0 : UInt64) - e = 0 - 512 ∨ (0 : UInt64) - e = 0 - 513 ∨ (0 : UInt64) - e = 0 - 514) := by
      obtain ⟨h1, h2, h3, h4⟩ := he
      rintro (h | h | h)
      · exact h1 (by grind)
      · exact h2 (by grind)
      · exact h3 (by grind)
    have h3 : ¬ ((0 : UInt64) - e = 0 - 516) := fun h => he.2.2.2 (by grind)
    simp only [h2, h3, if_false, ite_self]
  rw [hr, h, ht]
  exact ⟨rfl, rfl, rfl, rfl, rfl⟩

/-- **C192** (the rest.) A thread that was in no system call has all of its general registers back. -/
theorem C192_not_in_call (calls : List (UInt64 × Body)) (t : Thread) (h : ¬ IsCall t.regs.orig) :
    ∃ u, livePatch calls t = some u ∧ u.regs = t.regs := by
  obtain ⟨u, hu, hr⟩ := livePatch_regs calls t
  have h' : t.regs.orig = 0 - 1 := by unfold IsCall at h; exact Decidable.of_not_not h
  exact ⟨u, hu, by rw [hr, resume, if_pos h']⟩

/-! ### C193 -/

/-- **C193** (part: the general registers.) They are as if the thread had been stopped and let go with nothing run in it. -/
theorem C193_registers_partial (calls : List (UInt64 × Body)) (t : Thread) :
    ∃ u v, livePatch calls t = some u ∧ livePatch [] t = some v ∧ u.regs = v.regs := by
  obtain ⟨u, hu, hr⟩ := livePatch_regs calls t
  obtain ⟨v, hv, hs⟩ := livePatch_regs [] t
  exact ⟨u, v, hu, hv, by rw [hr, hs]⟩

/-- **C193** (part: if the functions leave them alone.) The vector and floating-point registers are as before. -/
theorem C193_vectors_partial (calls : List (UInt64 × Body)) (hc : ∀ c ∈ calls, ∀ t, (c.2 t).vec = t.vec) (t : Thread) :
    ∃ u, livePatch calls t = some u ∧ u.vec = t.vec := by
  obtain ⟨u, hu⟩ := runAll_some t.regs calls t
  refine ⟨{ u with regs := resume t.regs }, by rw [livePatch, hu], ?_⟩
  exact runAll_keeps Thread.vec (fun _ _ => rfl) t.regs calls hc t u hu

/-- **C193** (the negation.) A function that always changes them leaves the thread it interrupted with others. -/
theorem C193_vectors_spoilt (a : UInt64) (f : Body) (hf : ∀ t, (f t).vec ≠ t.vec) (t : Thread) :
    ∃ u, livePatch [(a, f)] t = some u ∧ u.vec ≠ t.vec := by
  obtain ⟨r, hr⟩ := runOne_eq t.regs a f t
  refine ⟨_, by rw [livePatch, runAll, hr]; rfl, ?_⟩
  exact hf { t with regs := entry t.regs a }

/-- **C193** (the threads beside the main thread, in which nothing is run.) Vector registers and `errno` are as before. -/
theorem C193_other_threads (t : Thread) : ∃ u, livePatch [] t = some u ∧ u.vec = t.vec ∧ u.errno = t.errno :=
  ⟨_, rfl, rfl, rfl⟩

/-! ### C194 -/

theorem redirectSp_aligned (z sp : UInt64) : (Ptrace.redirectSp z sp).toNat % 64 = 0 := by
  unfold Ptrace.redirectSp
  rw [UInt64.toNat_and, show (64 : Nat) = 2 ^ 6 from rfl, ← Nat.and_two_pow_sub_one_eq_mod, Nat.and_assoc]
  have : (0xFFFFFFFFFFFFFFC0 : UInt64).toNat &&& (2 ^ 6 - 1) = 0 := by decide
  rw [this, Nat.and_zero]

theorem livePatch_one (a : UInt64) (f : Body) (t : Thread) :
    livePatch [(a, f)] t = some { f { t with regs := entry t.regs a } with regs := resume t.regs } := by
  obtain ⟨r, hr⟩ := runOne_eq t.regs a f t
  rw [livePatch, runAll, hr]
  rfl

theorem entry_sp (r : Regs) (a : UInt64) : (entry r a).sp + 8 = Ptrace.redirectSp 128 r.sp := by
  unfold entry
  grind

/-- **C194** (part: if the interrupted thread had the direction flag clear.) Wherever it was interrupted, in a system call or
not, the function is entered once, as the calling convention requires, and what it makes of all but the general registers is
what the thread goes on with. -/
theorem C194_entered_well_partial (a : UInt64) (t : Thread) (h : directionFlag t.regs = false) :
    ∃ e, EnteredWell e ∧ ∀ f : Body, livePatch [(a, f)] t = some { f { t with regs := e } with regs := resume t.regs } :=
  ⟨entry t.regs a, ⟨by rw [entry_sp]; exact redirectSp_aligned _ _, h⟩, fun f => livePatch_one a f t⟩

/-- **C194** (the negation.) If it was set, as between `std` and `cld` of a copy from high to low addresses, the stack is
aligned, but the function is entered with the direction flag set; then the string instructions in it go the wrong way. -/
theorem C194_direction_set (a : UInt64) (t : Thread) (h : directionFlag t.regs = true) :
    ∃ e, (e.sp + 8).toNat % 64 = 0 ∧ directionFlag e = true ∧ ¬ EnteredWell e ∧
      ∀ f : Body, livePatch [(a, f)] t = some { f { t with regs := e } with regs := resume t.regs } := by
  have hd : directionFlag (entry t.regs a) = true := h
  refine ⟨entry t.regs a, by rw [entry_sp]; exact redirectSp_aligned _ _, hd, fun hw => ?_, fun f => livePatch_one a f t⟩
  have := hw.2
  rw [hd] at this
  cases this

/-! ### C195 -/

/-- **C195** (part: if the functions leave it alone.) `errno` is as before. -/
theorem C195_errno_partial (calls : List (UInt64 × Body)) (hc : ∀ c ∈ calls, ∀ t, (c.2 t).errno = t.errno) (t : Thread) :
    ∃ u, livePatch calls t = some u ∧ u.errno = t.errno := by
  obtain ⟨u, hu⟩ := runAll_some t.regs calls t
  refine ⟨{ u with regs := resume t.regs }, by rw [livePatch, hu], ?_⟩
  exact runAll_keeps Thread.errno (fun _ _ => rfl) t.regs calls hc t u hu

/-- **C195** (the negation.) A thread interrupted between a call and its look at `errno` sees the error number that the
function left. -/
theorem C195_errno_of_function (a : UInt64) (f : Body) (n : Nat) (hf : ∀ t, (f t).errno = n) (t : Thread) :
    ∃ u, livePatch [(a, f)] t = some u ∧ u.errno = n ∧ u.regs = resume t.regs :=
  ⟨_, livePatch_one a f t, hf _, rfl⟩

/-! ### Cases -/

/-- About to read (call 0) at 0x401000. -/
def reading : Regs :=
  { ip := 0x401000, ax := 0, orig := 0 - 1, sp := 0x7ffe00001238, flags := 0x246, cx := 7, r11 := 8, other := fun i => i.toUInt64 }

/-- Stopped in the call with a given error. -/
def waiting (e : UInt64) : Thread :=
  { regs := { reading with orig := 0, ax := 0 - e, ip := 0x401002, cx := 0x401002, r11 := 0x246 }, vec := fun i => 100 + i, errno := 11 }

/-- A function that uses a vector register, fails to open a file, and returns 1 in rax. -/
def opening : Body := fun t => { regs := { t.regs with ax := 1, cx := 99 }, vec := fun i => if i = 0 then 5 else t.vec i, errno := 2 }

/-- A function that leaves all but general registers. -/
def quiet : Body := fun t => { t with regs := { t.regs with ax := 0, other := fun _ => 0 } }

example : ∃ u, livePatch [(0x7f0000001000, opening), (0x7f0000002000, quiet)] (waiting 512) = some u ∧ AboutToCall reading 0 u.regs :=
  C192_goes_on_partial _ reading 512 _ (by unfold IsCall; decide) (Or.inl rfl) rfl

example : ((livePatch [(0x7f0000001000, opening)] (waiting 512)).map fun u => (u.regs.ip, u.regs.ax, u.regs.sp, u.vec 0, u.vec 1, u.errno)) =
    some (0x401000, 0, 0x7ffe00001238, 5, 101, 2) := by decide +kernel

example : ∃ u, livePatch [(0x7f0000001000, opening)] (waiting 516) = some u ∧ AboutToCall reading 219 u.regs :=
  C192_goes_on_by_restart_partial _ reading _ (by unfold IsCall; decide) rfl

example : ∃ u, livePatch [(0x7f0000001000, quiet)] (waiting 4) = some u ∧ SeesError reading 4 u.regs :=
  C192_sees_error _ reading 4 _ (by decide) rfl

example : ∃ u, livePatch [(0x7f0000001000, opening)] { waiting 4 with regs := reading } = some u ∧ u.regs = reading :=
  C192_not_in_call _ { waiting 4 with regs := reading } (by unfold IsCall; decide)

example : ∃ u v, livePatch [(0x7f0000001000, opening), (0x7f0000002000, quiet)] (waiting 513) = some u ∧
    livePatch [] (waiting 513) = some v ∧ u.regs = v.regs :=
  C193_registers_partial _ _

example : ∃ u, livePatch [(0x7f0000001000, quiet), (0x7f0000002000, quiet)] (waiting 512) = some u ∧ u.vec = (waiting 512).vec :=
  C193_vectors_partial _ (by simp [quiet]) _

example : ∃ u, livePatch [(0x7f0000001000, fun t => { t with vec := fun i => t.vec i + 1 })] (waiting 512) = some u ∧
    u.vec ≠ (waiting 512).vec :=
  C193_vectors_spoilt _ _ (fun t h => by have := congrFun h 0; simp at this) _

example : ∃ u, livePatch [] (waiting 4) = some u ∧ u.vec = (waiting 4).vec ∧ u.errno = 11 := C193_other_threads _

example : ∃ e, EnteredWell e ∧ ∀ f : Body, livePatch [(0x7f0000001000, f)] (waiting 512) =
    some { f { waiting 512 with regs := e } with regs := resume (waiting 512).regs } :=
  C194_entered_well_partial _ _ (by decide +kernel)

example : ∃ e, (e.sp + 8).toNat % 64 = 0 ∧ directionFlag e = true ∧ ¬ EnteredWell e ∧
    ∀ f : Body, livePatch [(0x7f0000001000, f)] { waiting 4 with regs := { reading with flags := 0x646 } } =
      some { f { waiting 4 with regs := e } with regs := resume { reading with flags := 0x646 } } :=
  C194_direction_set 0x7f0000001000 { waiting 4 with regs := { reading with flags := 0x646 } } (by decide +kernel)

example : ∃ u, livePatch [(0x7f0000001000, quiet)] (waiting 512) = some u ∧ u.errno = 11 :=
  C195_errno_partial [(0x7f0000001000, quiet)] (by simp [quiet]) (waiting 512)

example : ∃ u, livePatch [(0x7f0000001000, opening)] (waiting 4) = some u ∧ u.errno = 2 ∧ u.regs = resume (waiting 4).regs :=
  C195_errno_of_function 0x7f0000001000 opening 2 (fun _ => rfl) (waiting 4)

end Verif.Resume
