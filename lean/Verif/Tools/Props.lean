import Verif.Tools.Lemmas
import Verif.Runtime.Props

/-! Theorems on several tools at work on the same process. -/

namespace Verif.Tools

open Verif.Runtime
open Verif.Runtime.Spec
open Verif.X86.Spec (callDest body)

/-! ### C133 -/

/-- **C133** At any time at most one tool is in its critical section, and while one is, no thread of the process runs: whatever else
the process and other tools do, even if tools are killed. -/
theorem C133_one_inside {fuel main : Nat} {crash : Bool} {s : State} {alive : Nat → Prop} (hm : alive main)
    {log : List (Nat × Request × Nat)} {c : Conf} (h : Steps fuel main crash (start s alive) log c) {i : Nat} (hi : c.Inside i) :
    (∀ j, c.Inside j → j = i) ∧ ∀ t, ¬ c.Running t := by
  have hh := held_steps (held_start hm) h
  obtain ⟨k, hk⟩ := hi
  refine ⟨fun j ⟨k', hj⟩ => hh.one hj hk, fun t ⟨ha, hr⟩ => ?_⟩
  rw [hh.all i k hk t ha] at hr
  cases hr

/-- **C133** Tools at work on the same process at the same time, none of them killed in its critical section: whenever none is inside, the process is in the
state in which the tools that got through would have left it one after the other, in the order in which they left, and each got the answer that it would have got then. -/
theorem C133_one_by_one {fuel main : Nat} {s : State} {alive : Nat → Prop} (hm : alive main)
    {log : List (Nat × Request × Nat)} {c : Conf} (h : Steps fuel main false (start s alive) log c) (hq : c.Quiet) :
    OneByOne fuel s log c.s := by
  obtain ⟨t, h1, h2, _⟩ := serial_steps hm h
  rw [h2 hq]
  exact h1

/-- **C133** So calls go to the newest patch, whichever tools have been at work. -/
theorem C133_calls {m₀ : Mem} {F slot : Nat → Prop} (hI : Image m₀ F slot) {fuel main : Nat} {alive : Nat → Prop} (hm : alive main)
    {log : List (Nat × Request × Nat)} {c : Conf} (h : Steps fuel main false (start (State.init m₀) alive) log c) (hq : c.Quiet)
    (hfit : ∀ x ∈ log, Fits m₀ F slot x.2.1) (hh : healthy c.s.err) (f : Nat) (hf : F f) :
    callDest c.s.mem f = some ((replacement (trackAll [] (log.map (·.2.1)) (log.map (·.2.2))) f).getD (body m₀ f)) := by
  refine C18_calls_reach_newest hI fuel _ (fun r hr => ?_) c.s _ (C133_one_by_one hm h hq) hh f hf
  obtain ⟨x, hx, rfl⟩ := List.mem_map.1 hr
  exact hfit x hx

/-- **C133** The steps are enough: a tool outside can get through whenever no other tool has a thread. -/
theorem C133_gets_through {fuel main : Nat} {crash : Bool} {c : Conf} {i : Nat} (hp : c.phase i = .out)
    (hfree : ∀ t, c.alive t → c.tracer t = none) (ts : List Nat) (hts : ∀ t, c.alive t → t ∈ ts)
    (r : Request) (s' : State) (a : Nat) (hs : serve fuel c.s r = some (s', a)) :
    ∃ d, Steps fuel main crash c [(i, r, a)] d ∧ d.s = s' ∧ d.alive = c.alive ∧ (∀ t, d.alive t → d.tracer t = none) ∧ d.phase = c.phase := by
  have h1 := Steps.one (Step.begin (fuel := fuel) (main := main) (crash := crash) c i hp)
  obtain ⟨tr, h2, _, h4⟩ := attach_steps (fuel := fuel) (main := main) (crash := crash) i ts { c with phase := upd c.phase i .scan } (upd_self ..)
    (fun t ht => .inl (hfree t ht))
  have h5 := Steps.one (Step.enter (fuel := fuel) (main := main) (crash := crash)
    { c with tracer := tr, phase := upd c.phase i .scan } i r (upd_self ..) (fun t ht => h4 t ht (.inl (hts t ht))))
  simp only [upd_upd] at h5
  have h6 := section_steps (fuel := fuel) (main := main) (crash := crash) i r { c with tracer := tr, phase := upd c.phase i (.crit (.call r)) }
    (upd_self ..) s' a hs
  simp only [upd_upd] at h6
  have h7 := Steps.one (Step.die (fuel := fuel) (main := main) (crash := crash)
    { c with s := s', tracer := tr, phase := upd c.phase i .release } i (.inr (fun k => by simp [upd_self])))
  simp only [upd_upd] at h7
  refine ⟨_, Steps.trans (Steps.trans (Steps.trans (Steps.trans h1 h2) h5) h6) h7, rfl, rfl, fun t ht => ?_, upd_same _ _ _ hp⟩
  simp [h4 t ht (.inl (hts t ht))]

theorem more {fuel main : Nat} {crash : Bool} {b c : Conf} {l : List (Nat × Request × Nat)} {i : Nat} (h : Steps fuel main crash b l c) (hp : c.phase i = .out)
    (hfree : ∀ t, c.alive t → c.tracer t = none) (ts : List Nat) (hts : ∀ t, c.alive t → t ∈ ts)
    (r : Request) (s' : State) (a : Nat) (hs : serve fuel c.s r = some (s', a)) :
    ∃ d, Steps fuel main crash b (l ++ [(i, r, a)]) d ∧ d.s = s' ∧ d.phase = c.phase := by
  obtain ⟨d, h1, h2, _, _, h3⟩ := C133_gets_through (main := main) (crash := crash) hp hfree ts hts r s' a hs
  exact ⟨d, Steps.trans h h1, h2, h3⟩

/-- Two tools fight for two threads, each attaching one. The first gives up. The second gets through, then another one does. -/
theorem demo_trace : ∃ c log, Steps 10 1 false (start (State.init demoMem) (fun t => t = 1 ∨ t = 2)) log c ∧ c.Quiet ∧
    log.map (fun x => (x.1, x.2.2)) = [(8, 0), (9, 0)] ∧ callDest c.s.mem 0x1000 = some 0x700002 ∧ callDest c.s.mem 0x2000 = some 0x700001 := by
  let r₁ : Request := .apply demoWorld (.ok (demoPatch 1 libA [0x1000, 0x2000] [] demoRefs))
  let r₂ : Request := .apply demoWorld (.ok (demoPatch 2 libA [0x1000] [[1]] []))
  have e : ((serve 10 (State.init demoMem) r₁).bind fun p => (serve 10 p.1 r₂).map fun q =>
      (p.2, q.2, callDest q.1.mem 0x1000, callDest q.1.mem 0x2000)) = some (0, 0, some 0x700002, some 0x700001) := by decide +kernel
  cases h1 : serve 10 (State.init demoMem) r₁ with
  | none => rw [h1] at e; cases e
  | some p =>
    obtain ⟨s1, a1⟩ := p
    rw [h1, Option.bind_some] at e
    cases h2 : serve 10 s1 r₂ with
    | none => rw [h2] at e; cases e
    | some q =>
      obtain ⟨s2, a2⟩ := q
      rw [h2] at e
      simp only [Option.map_some, Option.some.injEq, Prod.mk.injEq] at e
      obtain ⟨rfl, rfl, e3, e4⟩ := e
      let c0 := start (State.init demoMem) (fun t => t = 1 ∨ t = 2)
      have b7 := Steps.one (Step.begin (fuel := 10) (main := 1) (crash := false) c0 7 rfl)
      have b8 := Steps.trans b7 (Steps.one (Step.begin _ 8 rfl))
      have t1 := Steps.trans b8 (Steps.one (Step.attach _ 7 1 rfl (.inl rfl) rfl))
      have t2 := Steps.trans t1 (Steps.one (Step.attach _ 8 2 rfl (.inr rfl) rfl))
      have f7 := Steps.trans t2 (Steps.one (Step.fail _ 7 rfl))
      have d7 := Steps.trans f7 (Steps.one (Step.detach _ 7 1 rfl rfl))
      have g7 := Steps.trans d7 (Steps.one (Step.home _ 7 rfl))
      have t8 := Steps.trans g7 (Steps.one (Step.attach _ 8 1 rfl (.inl rfl) rfl))
      have e8 := Steps.trans t8 (Steps.one (Step.enter _ 8 r₁ rfl (by rintro t (rfl | rfl) <;> rfl)))
      have w8 := Steps.trans e8 (section_steps 8 r₁ _ rfl s1 0 h1)
      have x8 := Steps.trans w8 (Steps.one (Step.die _ 8 (.inr (fun k => by simp [upd_self]))))
      obtain ⟨d, hd, hs, hph⟩ := more (i := 9) x8 (by rfl) (by rintro t (rfl | rfl) <;> rfl) [1, 2] (by rintro t (rfl | rfl) <;> simp) r₂ s2 0 h2
      refine ⟨d, _, hd, ?_, rfl, by rw [hs]; exact e3, by rw [hs]; exact e4⟩
      rintro j ⟨k, hk⟩
      rw [hph] at hk
      simp only [upd, start, c0] at hk
      repeat' split at hk
      all_goals cases hk

/-- **C133** Not if tools are killed inside: what is left is then not the work of the tools that got through (here none). -/
theorem C133_killed : ∃ (s : State) (c : Conf), Steps 10 1 true (start s (fun t => t = 1)) [] c ∧ c.Quiet ∧ ¬ OneByOne 10 s [] c.s := by
  let r : Request := .apply demoWorld (.ok (demoPatch 1 libA [0x1000] [] []))
  let c0 := start (State.init demoMem) (fun t => t = 1)
  have e : ((Session.raw 10 (State.init demoMem) r).map fun p => (p.2, decide (p.1.q.num = 0))) = some (0, false) := by decide +kernel
  cases hr : Session.raw 10 (State.init demoMem) r with
  | none => rw [hr] at e; cases e
  | some p =>
    obtain ⟨s1, a⟩ := p
    rw [hr] at e
    simp only [Option.map_some, Option.some.injEq, Prod.mk.injEq] at e
    obtain ⟨rfl, hn⟩ := e
    have b := Steps.one (Step.begin (fuel := 10) (main := 1) (crash := true) c0 7 rfl)
    have t := Steps.trans b (Steps.one (Step.attach _ 7 1 rfl rfl rfl))
    have en := Steps.trans t (Steps.one (Step.enter _ 7 r rfl (by rintro t rfl; rfl)))
    have w := Steps.trans en (Steps.one (Step.work _ 7 (.call r) (.fetch r 0) s1 rfl (by
      show Sec.step 10 (State.init demoMem) (.call r) = _
      simp only [Sec.step, hr]; rfl)))
    have d := Steps.trans w (Steps.one (Step.die _ 7 (.inl rfl)))
    refine ⟨State.init demoMem, _, d, ?_, ?_⟩
    · rintro j ⟨k, hk⟩
      simp only [upd, start, c0] at hk
      repeat' split at hk
      all_goals cases hk
    · intro h
      simp only [OneByOne, List.map_nil, serveAll, Option.some.injEq, Prod.mk.injEq, and_true] at h
      have : s1.q.num = 0 := by
        have h' : State.init demoMem = s1 := h
        rw [← h']; rfl
      simp [this] at hn

/-! ### Further cases -/

example : ∃ c log, Steps 10 1 false (start (State.init demoMem) (fun t => t = 1 ∨ t = 2)) log c ∧ OneByOne 10 (State.init demoMem) log c.s := by
  obtain ⟨c, log, h, hq, -⟩ := demo_trace
  exact ⟨c, log, h, C133_one_by_one (.inl rfl) h hq⟩

/-- A tool at work in a process with two threads. -/
theorem demo_inside : ∃ c : Conf, Steps 10 1 false (start (State.init demoMem) (fun t => t = 1 ∨ t = 2)) [] c ∧ c.Inside 7 := by
  let c0 := start (State.init demoMem) (fun t => t = 1 ∨ t = 2)
  have b := Steps.one (Step.begin (fuel := 10) (main := 1) (crash := false) c0 7 rfl)
  have t1 := Steps.trans b (Steps.one (Step.attach _ 7 1 rfl (.inl rfl) rfl))
  have t2 := Steps.trans t1 (Steps.one (Step.attach _ 7 2 rfl (.inr rfl) rfl))
  have e := Steps.trans t2 (Steps.one (Step.enter _ 7 (.check [1]) rfl (by rintro t (rfl | rfl) <;> rfl)))
  exact ⟨_, e, ⟨_, rfl⟩⟩

example : ∃ c : Conf, c.Inside 7 ∧ (∀ j, c.Inside j → j = 7) ∧ ∀ t, ¬ c.Running t := by
  obtain ⟨c, h, hi⟩ := demo_inside
  exact ⟨c, hi, C133_one_inside (.inl rfl) h hi⟩

end Verif.Tools
