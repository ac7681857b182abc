import Verif.PpcEntry.Lemmas

namespace Verif.PpcEntry

/-! ### C196 -/

/-- **C196** Wherever the thread was stopped, in a system call that is to be restarted or not, the routine enters its function
once, with libpulp's table of contents in r2 and an aligned stack, and comes to its trap, with the function's result in r3,
with the memory that the function left, and with the link register as it was. -/
theorem C196_called_once (toc top a : Nat) (d : Int) (t : Thread) (hf : ∀ f, Fits toc ⟨a, d, f⟩) (hs : HasStack t.regs)
    (htop : t.regs.r1 ≤ top) (hl : t.regs.lr < 2 ^ 64) :
    ∃ e : Thread, Entered toc e.regs ∧ e.regs.lr = a + 32 ∧ e.regs.other = t.regs.other ∧
      ∀ f : Body, Obeys toc top f → ∃ u, runOne t.regs ⟨a, d, f⟩ t = some u ∧ u.regs.nip = a + 48 ∧
        u.regs.r3 = (f e).regs.r3 ∧ u.mem = (f e).mem ∧ u.regs.lr = t.regs.lr := by
  obtain ⟨e, he, hlr, h1, h2, ho, hm, hrun⟩ := runOne_eq toc t.regs a d t (hf id) hs
  refine ⟨e, he, hlr, ho, fun f hob => ⟨_, hrun f, rfl, rfl, rfl, ?_⟩⟩
  obtain ⟨hr1, hmem⟩ := hob e he
  show leVal ((f e).mem.load ((f e).regs.r1 + 32 + 16) 8) = t.regs.lr
  have hl' : (f e).mem.load (e.regs.r1 + 32 + 16) 8 = le 8 t.regs.lr := by
    have e1 : (f e).mem.load (e.regs.r1 + 32 + 16) 8 = e.mem.load (e.regs.r1 + 32 + 16) 8 :=
      load_congr fun i h3 h4 => hmem i (by omega) (by omega)
    rw [e1, hm, load_store_out (by rw [le_length]; omega)]
    have := load_store (m := t.mem) (a := e.regs.r1 + 32 + 16) (bytes := le 8 t.regs.lr)
    rw [le_length] at this
    exact this
  rw [hr1, hl']
  exact leVal_le_of_lt (by omega)

/-! ### C197 -/

/-- **C197** After any number of routines, whose functions obey the ABI, the stack is as before from 288 bytes below the
stack pointer on: the part below the stack pointer that leaf functions use without saying so is kept, too. -/
theorem C197_stack_untouched (toc top : Nat) (calls : List Routine) (hc : ∀ c ∈ calls, Fits toc c ∧ Obeys toc top c.body)
    (t : Thread) (hs : HasStack t.regs) :
    ∃ u, livePatch calls t = some u ∧ ∀ i, t.regs.r1 - 288 ≤ i → i < top → u.mem i = t.mem i := by
  obtain ⟨u, hu, hm⟩ := runAll_mem toc top t.regs calls hc hs t
  refine ⟨{ u with regs := resume t.regs }, by rw [livePatch, hu], fun i h1 h2 => hm i ?_ h2⟩
  have := hs.1
  omega

/-! ### C198 -/

theorem runAll_some (toc : Nat) (saved : Regs) (hs : HasStack saved) (calls : List Routine) (hc : ∀ c ∈ calls, Fits toc c)
    (t : Thread) : ∃ u, runAll saved calls t = some u := by
  induction calls generalizing t with
  | nil => exact ⟨t, rfl⟩
  | cons c cs ih =>
    obtain ⟨e, _, _, _, _, _, _, hrun⟩ := runOne_eq toc saved c.at_ c.d t (hc c List.mem_cons_self) hs
    obtain ⟨v, hv⟩ := ih (fun c h => hc c (List.mem_cons_of_mem _ h)) (trapT c.at_ (c.body e))
    exact ⟨v, by rw [runAll, show c = ⟨c.at_, c.d, c.body⟩ from rfl, hrun c.body]; exact hv⟩

theorem livePatch_regs (toc : Nat) (calls : List Routine) (hc : ∀ c ∈ calls, Fits toc c) (t : Thread) (hs : HasStack t.regs) :
    ∃ u, livePatch calls t = some u ∧ u.regs = resume t.regs := by
  obtain ⟨u, hu⟩ := runAll_some toc t.regs hs calls hc t
  exact ⟨{ u with regs := resume t.regs }, by rw [livePatch, hu], rfl⟩

/-- **C198** The registers with which the thread goes on are those with which it would have gone on after a mere stop. -/
theorem C198_as_if_stopped (toc : Nat) (calls : List Routine) (hc : ∀ c ∈ calls, Fits toc c) (t : Thread)
    (hs : HasStack t.regs) : ∃ u v, livePatch calls t = some u ∧ livePatch [] t = some v ∧ u.regs = v.regs := by
  obtain ⟨u, hu, hr⟩ := livePatch_regs toc calls hc t hs
  exact ⟨u, { t with regs := resume t.regs }, hu, rfl, hr⟩

theorem error_stopped (b r : Regs) (e : Nat) (he : 0 < e) (h : StoppedInCall b e r) : r.error = some e := by
  obtain ⟨r3, so, hr, h⟩ := h
  unfold Regs.error
  rcases h with ⟨hw, hso, h3⟩ | ⟨hw, hle, h3⟩
  · have e1 : r.so = true := by rw [hr]; exact hso
    have e2 : r.r3 = e := by rw [hr]; exact h3
    rw [hw]; simp only [e1, e2, if_true]
  · have e2 : r.r3 = 2 ^ 64 - e := by rw [hr]; exact h3
    rw [hw]; simp only [e2]
    rw [if_pos (by omega)]
    congr 1
    omega

/-- **C198** In particular a thread that waits in a call which the kernel restarts makes the same call again. -/
theorem C198_call_goes_on (toc : Nat) (calls : List Routine) (hc : ∀ c ∈ calls, Fits toc c) (b : Regs) (e : Nat) (t : Thread)
    (hs : HasStack t.regs) (he : e = 512 ∨ e = 513 ∨ e = 514) (ht : StoppedInCall b e t.regs) :
    ∃ u, livePatch calls t = some u ∧ AboutToCall b u.regs := by
  obtain ⟨u, hu, hr⟩ := livePatch_regs toc calls hc t hs
  refine ⟨u, hu, ?_⟩
  have h1 := error_stopped b t.regs e (by omega) ht
  obtain ⟨r3, so, ht, _⟩ := ht
  rw [hr, resume, h1]
  simp only
  rw [if_pos he, ht]
  exact ⟨by simp, rfl, rfl, rfl, rfl, rfl, rfl, rfl⟩

/-- **C198** A thread in no system call has all of its registers back. -/
theorem C198_not_in_call (toc : Nat) (calls : List Routine) (hc : ∀ c ∈ calls, Fits toc c) (t : Thread)
    (hs : HasStack t.regs) (h : t.regs.way = .none) : ∃ u, livePatch calls t = some u ∧ u.regs = t.regs := by
  obtain ⟨u, hu, hr⟩ := livePatch_regs toc calls hc t hs
  refine ⟨u, hu, ?_⟩
  rw [hr, resume, Regs.error, h]

/-- **C198** Nor is a call that succeeded made again, whatever its result. -/
theorem C198_call_succeeded (toc : Nat) (calls : List Routine) (hc : ∀ c ∈ calls, Fits toc c) (t : Thread)
    (hs : HasStack t.regs) (h : (t.regs.way = .sc ∧ t.regs.so = false) ∨ (t.regs.way = .scv ∧ t.regs.r3 < 2 ^ 64 - 4095)) :
    ∃ u, livePatch calls t = some u ∧ u.regs = t.regs := by
  obtain ⟨u, hu, hr⟩ := livePatch_regs toc calls hc t hs
  refine ⟨u, hu, ?_⟩
  have he : t.regs.error = none := by
    unfold Regs.error
    rcases h with ⟨hw, hso⟩ | ⟨hw, h3⟩
    · rw [hw]; simp only [hso]; rfl
    · rw [hw]; simp only; rw [if_neg (by omega)]
  rw [hr, resume, he]

/-! ### Cases -/

/-- About to read. -/
def reading : Regs :=
  { nip := 0x10001000, r0 := 3, r1 := 0x7fffeea8, r2 := 0x10027f00, r3 := 5, r12 := 0x7f12, lr := 0x10000f00, orig3 := 0,
    way := .none, so := false, other := fun i => i }

/-- Stopped in it, by `sc` or by `scv`. -/
def waiting (e : Nat) : Thread :=
  { regs := { reading with nip := 0x10001004, orig3 := 5, way := .sc, r3 := e, so := true }, mem := fun i => UInt8.ofNat i }

def waitingV (e : Nat) : Thread :=
  { regs := { reading with nip := 0x10001004, orig3 := 5, way := .scv, r3 := 2 ^ 64 - e }, mem := fun i => UInt8.ofNat i }

/-- A function that saves the link register in its caller's frame, makes a frame, and returns 0 and its table of contents. -/
def function : Body := fun t =>
  { regs := { t.regs with r3 := 0, r0 := t.regs.r2, lr := 77, other := fun _ => t.regs.r2 }
    mem := (t.mem.store (t.regs.r1 + 16) (le 8 t.regs.lr)).store (t.regs.r1 - 48) (le 8 t.regs.r1) }

theorem function_obeys (toc top : Nat) : Obeys toc top function := by
  intro t _
  refine ⟨rfl, fun i h1 _ => ?_⟩
  simp only [function]
  rw [store_out (by rw [le_length]; omega), store_out (by rw [le_length]; omega)]

theorem routine_fits (f : Body) : Fits 0x20030000 ⟨0x20001234, 0x2edcc, f⟩ := by
  unfold Fits; simp only; decide

example : ((runOne (waiting 512).regs ⟨0x20001234, 0x2edcc, function⟩ (waiting 512)).map fun u =>
    (u.regs.nip, u.regs.r3, u.regs.lr, u.regs.other 4)) = some (0x20001264, 0, 0x10000f00, 0x20030000) := by
  decide +kernel

example := C196_called_once 0x20030000 0x80000000 0x20001234 0x2edcc (waiting 512) routine_fits (by unfold HasStack; decide)
  (by decide) (by decide)

example : ∃ u, livePatch [⟨0x20001234, 0x2edcc, function⟩, ⟨0x20001234, 0x2edcc, function⟩] (waiting 4) = some u ∧
    ∀ i, (waiting 4).regs.r1 - 288 ≤ i → i < 0x80000000 → u.mem i = (waiting 4).mem i :=
  C197_stack_untouched 0x20030000 0x80000000 _
    (by intro c hc; simp at hc; subst hc; exact ⟨routine_fits _, function_obeys _ _⟩) _ (by unfold HasStack; decide)

/-- The stack further down is not as before: the link register is saved there. -/
example : ((livePatch [⟨0x20001234, 0x2edcc, function⟩] (waiting 4)).map fun u => u.mem.load (0x7fffec80 + 16) 8) =
    some (le 8 0x10000f00) := by
  decide +kernel

example : ∃ u v, livePatch [⟨0x20001234, 0x2edcc, function⟩] (waiting 4) = some u ∧ livePatch [] (waiting 4) = some v ∧
    u.regs = v.regs :=
  C198_as_if_stopped 0x20030000 _ (by intro c hc; simp at hc; subst hc; exact routine_fits _) _ (by unfold HasStack; decide)

example : ∃ u, livePatch [⟨0x20001234, 0x2edcc, function⟩] (waiting 512) = some u ∧ AboutToCall reading u.regs :=
  C198_call_goes_on 0x20030000 _ (by intro c hc; simp at hc; subst hc; exact routine_fits _) reading 512 _
    (by unfold HasStack; decide) (.inl rfl) ⟨512, true, rfl, .inl ⟨rfl, rfl, rfl⟩⟩

example : ∃ u, livePatch [⟨0x20001234, 0x2edcc, function⟩] (waitingV 514) = some u ∧ AboutToCall reading u.regs :=
  C198_call_goes_on 0x20030000 _ (by intro c hc; simp at hc; subst hc; exact routine_fits _) reading 514 _
    (by unfold HasStack; decide) (by decide) ⟨2 ^ 64 - 514, false, rfl, .inr ⟨rfl, by decide, rfl⟩⟩

example : ∃ u, livePatch [⟨0x20001234, 0x2edcc, function⟩] { waiting 4 with regs := reading } = some u ∧ u.regs = reading :=
  C198_not_in_call 0x20030000 _ (by intro c hc; simp at hc; subst hc; exact routine_fits _) { waiting 4 with regs := reading }
    (by unfold HasStack; decide) rfl

example : ∃ u, livePatch [⟨0x20001234, 0x2edcc, function⟩] { waiting 512 with regs := { (waiting 512).regs with so := false } } = some u ∧
    u.regs = { (waiting 512).regs with so := false } :=
  C198_call_succeeded 0x20030000 _ (by intro c hc; simp at hc; subst hc; exact routine_fits _)
    { waiting 512 with regs := { (waiting 512).regs with so := false } } (by unfold HasStack; decide) (.inl ⟨rfl, rfl⟩)

end Verif.PpcEntry
