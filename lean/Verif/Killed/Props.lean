import Verif.Killed.Lemmas
import Verif.Session.Props

/-!
C142: what becomes of a process when the tool at work on it is killed; C143: what its threads see then.
-/

namespace Verif.Killed

open Verif.Runtime
open Verif.Runtime.Spec
open Verif.Session
open Verif.Session.Spec
open Verif.Killed.Spec
open Verif.X86.Spec (callDest body)

variable {fuel main : Nat} {okR : Request → Prop} {okQ : QFault → Prop} {mid : State → QFault → State → Prop} {cont inject : Bool}

theorem live_of {s : State} {alive : Nat → Bool} {c : Conf} (hm : alive main = true) (h : Steps fuel main okR okQ mid cont inject (start s alive) c)
    (hk : ∀ b, c.phase ≠ .killed b) : Live main c := by
  rcases live_steps (live_start hm) h with h1 | ⟨e, keep, -, h1, h2⟩
  · exact h1
  · obtain ⟨ho, -, -⟩ := after_steps (P := fun _ => True) (fun _ _ _ _ _ => trivial) h1.orphans trivial h2
    obtain ⟨b, hb⟩ := ho.killed
    exact absurd hb (hk b)

/-! ### C142 -/

/-- **C142** (partial: before it stops the first thread and after it has let the last one go) Killing the tool does nothing to the process. -/
theorem C142_unaffected_partial {s : State} {alive : Nat → Bool} {c : Conf} (hm : alive main = true) (h : Steps fuel main okR okQ mid cont inject (start s alive) c)
    (hk : ∀ b, c.phase ≠ .killed b) (ho : HandsOff c) {keep : Nat → Bool} {d : Conf} (hd : Steps fuel main okR okQ mid cont inject (c.kill keep) d) : Fine d := by
  have hl := live_of hm h hk
  refine (after_steps (fun _ _ => fine_after) hl.orphans ⟨hl.going, fun t x hx => ?_⟩ hd).2.1
  obtain ⟨y, hy, rfl⟩ := kill_some hx
  have h1 := ho t y hy
  rw [(hl.all t y hy).free h1]; rfl

/-- **C142** (negation, for a kernel as ptrace(2) describes it) If it is killed in between, the process does not go on: unless somebody helps it never is as it was before. -/
theorem C142_halted {s : State} {alive : Nat → Bool} {c : Conf} (hm : alive main = true) (h : Steps fuel main okR okQ mid false inject (start s alive) c)
    (hk : ∀ b, c.phase ≠ .killed b) (hh : Holding main c) {keep : Nat → Bool} (hkeep : ∀ t, keep t = true) {d : Conf}
    (hd : Steps fuel main okR okQ mid false inject (c.kill keep) d) : ¬ Fine d := by
  have hl := live_of hm h hk
  refine (after_steps (fun _ _ => stuck_after) hl.orphans ?_ hd).2.1.not_fine
  obtain ⟨m, hmm⟩ := hl.here
  refine ⟨⟨m.orphan (keep main), by show (c.th main).map _ = _; rw [hmm]; rfl⟩, ?_⟩
  obtain ⟨t, x, hx, h1, h2⟩ := hh
  have hxk : (c.kill keep).th t = some (x.orphan (keep t)) := by show (c.th t).map _ = _; rw [hx]; rfl
  by_cases hs : x.stop = none
  · rcases h2 with h2 | rfl
    · exact absurd hs h2
    · have ho := hl.all t x hx
      refine .inr (.inr ⟨_, hxk, ?_⟩)
      rw [orphan_pend, orphan_ctx]
      exact ho.busy h1 hs
  · exact .inr (.inl ⟨t, _, hxk, by rw [(hl.all t x hx).orphan_inj, hkeep t, if_pos rfl]; exact hs⟩)

/-- **C142** (partial, for a kernel that forgets the signal) If all its threads have stopped for the tool and the main one has its own registers, the process goes on as before. -/
theorem C142_goes_on_partial {s : State} {alive : Nat → Bool} {c : Conf} (hm : alive main = true) (h : Steps fuel main okR okQ mid cont inject (start s alive) c)
    (hk : ∀ b, c.phase ≠ .killed b) (hs : Settled c) (hu : ¬ Taken (fun _ => false) main c) {d : Conf}
    (hd : Steps fuel main okR okQ mid cont inject (c.kill fun _ => false) d) : Fine d := by
  have hl := live_of hm h hk
  refine (after_steps (fun _ _ => fine_after) hl.orphans ⟨hl.going, fun t x hx => ?_⟩ hd).2.1
  obtain ⟨y, hy, rfl⟩ := kill_some hx
  have ho := hl.all t y hy
  have h1 := ho.orphan_inj (keep := false)
  obtain ⟨h2, h3⟩ := ho.orphan_stop (keep := false)
  have h4 : (y.orphan false).pend = false := by rw [orphan_pend]; exact hs t y hy
  have h5 : (y.orphan false).ctx = .own := by
    rw [orphan_ctx]
    by_cases e : t = main
    · subst e
      by_cases h6 : y.ctx = .own
      · exact h6
      · exact absurd ⟨y, hy, .inl h6⟩ hu
    · exact (ho.others e).1
  show y.orphan false = _
  generalize y.orphan false = z at h1 h2 h3 h4 h5
  obtain ⟨a1, a2, a3, a4, a5⟩ := z
  simp only at h1 h2 h3 h4 h5
  subst h2; subst h3; subst h4; subst h5
  rw [h1]; rfl

/-- **C142** (remedy, partial) If the main thread has not been given the registers of a routine yet, `SIGCONT` at any later moment makes the process go on as before. -/
theorem C142_sigcont_partial {s : State} {alive : Nat → Bool} {c : Conf} (hm : alive main = true) (h : Steps fuel main okR okQ mid true inject (start s alive) c)
    (hk : ∀ b, c.phase ≠ .killed b) {keep : Nat → Bool} (hu : ¬ Taken keep main c) {d : Conf} (hd : Steps fuel main okR okQ mid true inject (c.kill keep) d) :
    Step fuel main okR okQ mid true inject d d.cont ∧ Fine d.cont := by
  have hl := live_of hm h hk
  have ht : Tame (c.kill keep) := by
    refine ⟨by show c.proc ≠ _; rw [hl.going]; nofun, fun t x hx => ?_⟩
    obtain ⟨y, hy, rfl⟩ := kill_some hx
    have ho := hl.all t y hy
    rw [orphan_ctx, ho.orphan_inj]
    by_cases e : t = main
    · subst e
      refine ⟨?_, fun h1 => ?_⟩
      · by_cases h6 : y.ctx = .own
        · exact h6
        · exact absurd ⟨y, hy, .inl h6⟩ hu
      · split at h1
        · exact hu ⟨y, hy, .inr ⟨h1, by assumption⟩⟩
        · cases h1
    · refine ⟨(ho.others e).1, fun h1 => ?_⟩
      split at h1
      · exact (ho.others e).2 h1
      · cases h1
  obtain ⟨h1, h2, -⟩ := after_steps (fun _ _ => tame_after) hl.orphans ht hd
  obtain ⟨b, hb⟩ := h1.killed
  exact ⟨.sigcont d b rfl hb h2.proc, h2.fine h1⟩

/-- **C142** (negation) Otherwise the main thread is lost, whatever anybody does: it never executes an instruction of the program again, and from any later moment the process can
die without any further cause than `SIGCONT`. -/
theorem C142_lost {s : State} {alive : Nat → Bool} {c : Conf} (hm : alive main = true) (h : Steps fuel main okR okQ mid true inject (start s alive) c)
    (hk : ∀ b, c.phase ≠ .killed b) {keep : Nat → Bool} (hu : Taken keep main c) {d : Conf} (hd : Steps fuel main okR okQ mid true inject (c.kill keep) d) :
    ¬ d.Running main ∧ ∃ e, Steps fuel main okR okQ mid true inject d e ∧ e.proc = .dead := by
  have hl := live_of hm h hk
  have ht : Lost main (c.kill keep) := by
    obtain ⟨m, hmm, h1⟩ := hu
    refine .inr ⟨m.orphan (keep main), by show (c.th main).map _ = _; rw [hmm]; rfl, ?_⟩
    rw [orphan_ctx, (hl.all _ m hmm).orphan_inj]
    rcases h1 with h1 | ⟨h1, h2⟩
    · exact .inr h1
    · left; rw [h2, if_pos rfl]; exact h1
  obtain ⟨h1, h2, -⟩ := after_steps (fun _ _ => lost_after) hl.orphans ht hd
  exact ⟨h2.not_running, h2.dies h1⟩

/-! ### C143 -/

/-- **C143** (partial: threads take the signals that they were stopped for and nobody sends `SIGCONT`, or the tool was not in the middle of a queue) Whenever a thread of the process runs, all calls together go where they should after
the requests that libpulp had accepted up to some moment, at whichever moment the tool is killed. -/
theorem C143_whole_partial {m₀ : Mem} {F slot : Nat → Prop} (hI : Image m₀ F slot) {alive : Nat → Bool} (hm : alive main = true) {c : Conf}
    (h : Steps fuel main (Fits m₀ F slot) QFault.Ok mid cont inject (start (State.init m₀) alive) c) (hc : (cont = false ∧ inject = true) ∨ c.phase ≠ .killed true)
    {t : Nat} (ht : c.Running t) (hh : healthy c.s.err) :
    ∃ before later, c.log = before ++ later ∧ Follow m₀ F c.s.mem (notes [] before) := by
  obtain ⟨h1, h2⟩ := G_steps hI hm h
  have fin : W m₀ F slot c.s c.log → ∃ before later, c.log = before ++ later ∧ Follow m₀ F c.s.mem (notes [] before) := by
    intro hw
    obtain ⟨l, ⟨later, hl⟩, hf⟩ := hw.seen hh
    exact ⟨l, later, hl.symm, hf⟩
  cases hp : c.phase with
  | killed b =>
    rw [hp] at h2
    cases b with
    | true =>
      rcases hc with ⟨rfl, rfl⟩ | hc
      · exact absurd ht ((h2 rfl rfl).not_running t)
      · exact absurd hp hc
    | false => exact fin h2
  | writing s f =>
    rcases h1 with h1 | h1
    · obtain ⟨-, x, hx, h3, -⟩ := ht
      have := (h1.all t x hx).phase
      rw [hp] at this
      exact absurd h3 this.2.1
    · obtain ⟨b, hb⟩ := h1.killed
      rw [hp] at hb; cases hb
  | armed r => rw [hp] at h2; exact fin h2.1
  | waiting r => rw [hp] at h2; exact fin h2.1
  | out => rw [hp] at h2; exact fin h2
  | scan => rw [hp] at h2; exact fin h2
  | inside => rw [hp] at h2; exact fin h2
  | release => rw [hp] at h2; exact fin h2

/-! ### A process with two threads -/

def demoPatchReq : Request := .apply demoWorld (.ok (demoPatch 1 libA [0x1000, 0x2000] [] []))

def two : Nat → Bool := fun t => t == 1 || t == 2

theorem two_th {f : Nat → Option Th} {P : Nat → Th → Prop} (h0 : ∀ t, t ≠ 1 → t ≠ 2 → f t = none) (h1 : ∀ x, f 1 = some x → P 1 x) (h2 : ∀ x, f 2 = some x → P 2 x) :
    ∀ t x, f t = some x → P t x := by
  intro t x hx
  by_cases e : t = 1
  · subst e; exact h1 x hx
  · by_cases e' : t = 2
    · subst e'; exact h2 x hx
    · rw [h0 t e e'] at hx; cases hx

abbrev DemoSteps (cont inject : Bool) := Steps 10 1 (Fits demoMem demoF demoSlot) QFault.Ok between cont inject

/-- The tool has stopped both threads. -/
theorem demo_inside (cont inject : Bool) : DemoSteps cont inject (start (State.init demoMem) two)
    ⟨State.init demoMem, [], .going, upd (upd (upd (upd (start (State.init demoMem) two).th 1 (some ⟨true, none, true, none, .own⟩)) 2 (some ⟨true, none, true, none, .own⟩))
      1 (some ⟨true, some .stop, false, none, .own⟩)) 2 (some ⟨true, some .stop, false, none, .own⟩), .inside⟩ := by
  have f0 : DemoSteps cont inject (start (State.init demoMem) two) _ := .refl
  have f1 := f0.tail (.begin _ rfl)
  have f2 := f1.tail (.attach _ 1 free rfl rfl rfl)
  have f3 := f2.tail (.attach _ 2 free rfl rfl rfl)
  have f4 := f3.tail (.halt _ 1 _ rfl rfl rfl rfl rfl rfl)
  have f5 := f4.tail (.halt _ 2 _ rfl rfl rfl rfl rfl rfl)
  refine f5.tail (.enter _ rfl (two_th (fun t h1 h2 => ?_) (fun x hx => ?_) (fun x hx => ?_)))
  · simp [upd, h1, h2, start, two]
  · cases hx; exact ⟨rfl, nofun⟩
  · cases hx; exact ⟨rfl, nofun⟩

/-- The tool is executing the queue of the patch; the first function is done. -/
theorem demo_middle (cont inject : Bool) : ∃ c : Conf, DemoSteps cont inject (start (State.init demoMem) two) c ∧ (∃ s f, c.phase = .writing s f) ∧ c.s.err = 0 ∧ c.log = [(demoPatchReq, 0)] ∧
    callDest c.s.mem 0x1000 = some 0x700001 ∧ callDest c.s.mem 0x2000 = some 0x2002 ∧ c.proc = .going ∧
    c.th 1 = some ⟨true, some .trap, false, none, .routine 0⟩ ∧ c.th 2 = some ⟨true, some .stop, false, none, .own⟩ := by
  have e : ((raw 10 (State.init demoMem) demoPatchReq).map fun p =>
      let m := ((InsnQueue.interpret (InsnQueue.fetch p.1.q).1 noFault.write).1.take 1).foldl InsnQueue.Event.apply p.1.mem
      (p.2, p.1.err, callDest m 0x1000, callDest m 0x2000)) = some (0, 0, some 0x700001, some 0x2002) := by decide +kernel
  cases h1 : raw 10 (State.init demoMem) demoPatchReq with
  | none => rw [h1] at e; cases e
  | some p =>
    obtain ⟨s1, a1⟩ := p
    rw [h1] at e
    simp only [Option.map_some, Option.some.injEq, Prod.mk.injEq] at e
    obtain ⟨rfl, e1, e2, e3⟩ := e
    have hfit : Fits demoMem demoF demoSlot demoPatchReq := demo_fits _ _ _ _ _ (by simp [demoF]) (by simp)
    have f6 := (demo_inside cont inject).tail (.arm _ _ demoPatchReq 0 rfl rfl hfit)
    have f7 := f6.tail (.go _ _ demoPatchReq rfl rfl)
    have f8 := f7.tail (.trap _ 1 _ rfl rfl rfl rfl rfl rfl)
    have f9 := f8.tail (.answer _ _ demoPatchReq s1 0 rfl rfl rfl h1)
    have f10 := f9.tail (.write _ _ noFault rfl rfl rfl noFault_ok)
    have f11 := f10.tail (.mid _ s1 noFault _ rfl ⟨1, rfl⟩)
    exact ⟨_, f11, ⟨_, _, rfl⟩, e1, rfl, e2, e3, rfl, rfl, rfl⟩

/-- No request or one: half of it is not either. -/
theorem demo_half {m : Mem} {l : Log} (h2 : l = [(demoPatchReq, 0)]) (h3 : callDest m 0x1000 = some 0x700001) (h4 : callDest m 0x2000 = some 0x2002) :
    ¬ ∃ before later, l = before ++ later ∧ Follow demoMem demoF m (notes [] before) := by
  rintro ⟨before, later, hl, hf⟩
  rw [h2] at hl
  have a := hf 0x1000 (by simp [demoF])
  have b := hf 0x2000 (by simp [demoF])
  rw [h3] at a
  rw [h4] at b
  cases before with
  | nil => exact absurd a (by decide +kernel)
  | cons x before =>
    cases before with
    | nil =>
      rw [List.singleton_append, List.cons.injEq] at hl
      rw [← hl.1] at b
      exact absurd b (by decide +kernel)
    | cons y z =>
      have := congrArg List.length hl
      simp at this

/-- **C143** (negation) If somebody sends `SIGCONT` after the tool was killed in the middle of a queue, a thread can run with one function patched and the other not. -/
theorem C143_sigcont : ∃ c : Conf, Steps 10 1 (Fits demoMem demoF demoSlot) QFault.Ok between true true (start (State.init demoMem) two) c ∧ c.Running 2 ∧ healthy c.s.err ∧
    ¬ ∃ before later, c.log = before ++ later ∧ Follow demoMem demoF c.s.mem (notes [] before) := by
  obtain ⟨c, h, ⟨s, f, hp⟩, h1, h2, h3, h4, h5, h6, h7⟩ := demo_middle true true
  have g1 := h.tail (.kill c (fun _ => true) (fun b => by rw [hp]; nofun) (fun _ _ => rfl))
  have g2 := g1.tail (.sigcont _ _ rfl rfl (by show c.proc ≠ _; rw [h5]; nofun))
  refine ⟨_, g2, ⟨rfl, free, ?_, rfl, rfl, rfl⟩, .inl h1, demo_half (m := c.s.mem) (l := c.log) h2 h3 h4⟩
  show ((c.th 2).map (Th.orphan true)).map Th.cont = some free
  rw [h7]; rfl

/-- **C143** (negation) The same without `SIGCONT` if the kernel forgets the signals. -/
theorem C143_forgotten : ∃ c : Conf, Steps 10 1 (Fits demoMem demoF demoSlot) QFault.Ok between false false (start (State.init demoMem) two) c ∧ c.Running 2 ∧ healthy c.s.err ∧
    ¬ ∃ before later, c.log = before ++ later ∧ Follow demoMem demoF c.s.mem (notes [] before) := by
  obtain ⟨c, h, ⟨s, f, hp⟩, h1, h2, h3, h4, h5, h6, h7⟩ := demo_middle false false
  have g1 := h.tail (.kill c (fun _ => false) (fun b => by rw [hp]; nofun) nofun)
  refine ⟨_, g1, ⟨h5, free, ?_, rfl, rfl, rfl⟩, .inl h1, demo_half (m := c.s.mem) (l := c.log) h2 h3 h4⟩
  show (c.th 2).map (Th.orphan false) = some free
  rw [h7]; rfl

/-! ### Concrete cases -/

/-- Killed before it does anything. -/
example : Fine ((start (State.init demoMem) two).kill fun _ => true) :=
  C142_unaffected_partial (cont := true) (inject := true) (okR := Fits demoMem demoF demoSlot) (okQ := QFault.Ok) (mid := between) (fuel := 10) (main := 1) (alive := two) rfl .refl nofun
    (by intro t x hx; simp only [start] at hx; split at hx <;> cases hx; rfl) .refl

/-- Killed when it has stopped both threads. -/
example := C142_halted (main := 1) (alive := two) rfl (demo_inside false true) nofun ⟨2, _, rfl, rfl, .inl nofun⟩ (keep := fun _ => true) (fun _ => rfl) .refl

example := C142_goes_on_partial (main := 1) (alive := two) rfl (demo_inside false false) nofun
  (two_th (fun t h1 h2 => by simp [upd, h1, h2, start, two]) (fun x hx => by cases hx; rfl) (fun x hx => by cases hx; rfl))
  (by rintro ⟨x, hx, h⟩; cases hx; rcases h with h | h; exact h rfl; cases h.1) .refl

example := C142_sigcont_partial (main := 1) (alive := two) rfl (demo_inside true true) nofun (keep := fun _ => true)
  (by rintro ⟨x, hx, h⟩; cases hx; rcases h with h | h; exact h rfl; cases h.1) .refl

/-- Killed while it executes the queue. -/
example : ∃ c : Conf, DemoSteps true false (start (State.init demoMem) two) c ∧ ∀ keep d, DemoSteps true false (c.kill keep) d → ¬ d.Running 1 := by
  obtain ⟨c, h, ⟨s, f, hp⟩, h1, h2, h3, h4, h5, h6, h7⟩ := demo_middle true false
  exact ⟨c, h, fun keep d hd => (C142_lost (main := 1) (alive := two) rfl h (fun b => by rw [hp]; nofun) ⟨_, h6, .inl nofun⟩ hd).1⟩

/-- The patch is complete, the main thread has its registers back, and the tool is killed before it lets anybody go. -/
theorem demo_done : ∃ c : Conf, DemoSteps true false (start (State.init demoMem) two) c ∧ c.phase = .killed false ∧ c.log = [(demoPatchReq, 0)] ∧ c.s.err = 0 ∧
    callDest c.s.mem 0x1000 = some 0x700001 ∧ c.Running 2 := by
  have e : ((raw 10 (State.init demoMem) demoPatchReq).bind fun p => (interp noFault p.1).map fun q => (p.2, q.2, q.1.err, callDest q.1.mem 0x1000)) =
      some (0, 0, 0, some 0x700001) := by decide +kernel
  cases h1 : raw 10 (State.init demoMem) demoPatchReq with
  | none => rw [h1] at e; cases e
  | some p =>
    obtain ⟨s1, a1⟩ := p
    rw [h1, Option.bind_some] at e
    simp only at e
    cases h2 : interp noFault s1 with
    | none => rw [h2] at e; cases e
    | some q =>
      obtain ⟨s2, a2⟩ := q
      rw [h2] at e
      simp only [Option.map_some, Option.some.injEq, Prod.mk.injEq] at e
      obtain ⟨rfl, rfl, e1, e2⟩ := e
      have hfit : Fits demoMem demoF demoSlot demoPatchReq := demo_fits _ _ _ _ _ (by simp [demoF]) (by simp)
      have f6 := (demo_inside true false).tail (.arm _ _ demoPatchReq 0 rfl rfl hfit)
      have f7 := f6.tail (.go _ _ demoPatchReq rfl rfl)
      have f8 := f7.tail (.trap _ 1 _ rfl rfl rfl rfl rfl rfl)
      have f9 := f8.tail (.answer _ _ demoPatchReq s1 0 rfl rfl rfl h1)
      have f10 := f9.tail (.write _ _ noFault rfl rfl rfl noFault_ok)
      have f11 := f10.tail (.wrote _ s1 noFault s2 0 rfl h2)
      have f12 := f11.tail (.leave _ (.inl rfl))
      have f13 := f12.tail (.restore _ 1 _ rfl rfl rfl nofun)
      have f14 := f13.tail (.kill _ (fun _ => false) nofun nofun)
      exact ⟨_, f14, rfl, rfl, e1, e2, rfl, free, rfl, rfl, rfl, rfl⟩

/-- What its threads see then. -/
example : ∃ c : Conf, DemoSteps true false (start (State.init demoMem) two) c ∧ callDest c.s.mem 0x1000 = some 0x700001 ∧
    ∃ before later, [(demoPatchReq, 0)] = before ++ later ∧ Follow demoMem demoF c.s.mem (notes [] before) := by
  obtain ⟨c, h, h1, h2, h3, h4, h5⟩ := demo_done
  have := C143_whole_partial (fuel := 10) (main := 1) (mid := between) demo_image (alive := two) rfl h (.inr (by rw [h1]; nofun)) h5 (.inl h3)
  rw [h2] at this
  exact ⟨c, h, h4, this⟩

end Verif.Killed
