import Verif.PowerTools.Lemmas
import Verif.Power.Props
import Verif.Tools.Props

/-! Property C218: several tools at work on the same process on POWER. -/

namespace Verif.Power.Crew

open Verif.Runtime hiding Good Inv area loadPatch_apply_ok demoMem demo_image demo_fits demo_reqs_fit demo_run serve serveAll
open Verif.Runtime.Spec (Patch track trackAll replacement healthy Idle patchOf)
open Power.Spec (callDest entryOff body Image Fits)
open Verif.InsnQueue (Effect applyEffects)
open Verif.Tools (Sec Phase Conf upd start queues upd_self upd_ne upd_crit upd_idle upd_upd upd_same Held held_start Conf.Inside
  Conf.Quiet Conf.Running)

variable {tm : List UInt8}

/-! ### C218 -/

/-- **C218** At any time at most one tool is in its critical section, and while one is, no thread of the process runs: whatever else
the process and other tools do, even if tools are killed. -/
theorem C218_one_inside {fuel main : Nat} {crash : Bool} {s : State} {alive : Nat → Prop} (hm : alive main)
    {log : List (Nat × Request × Nat)} {c : Conf} (h : Steps tm fuel main crash (start s alive) log c) {i : Nat} (hi : c.Inside i) :
    (∀ j, c.Inside j → j = i) ∧ ∀ t, ¬ c.Running t := by
  have hh := held_steps (held_start hm) h
  obtain ⟨k, hk⟩ := hi
  refine ⟨fun j ⟨k', hj⟩ => hh.one hj hk, fun t ⟨ha, hr⟩ => ?_⟩
  rw [hh.all i k hk t ha] at hr
  cases hr

/-- **C218** Tools at work on the same process at the same time, none of them killed in its critical section: whenever none is inside, the process is in the
state in which the tools that got through would have left it one after the other, in the order in which they left, and each got the answer that it would have got then. -/
theorem C218_one_by_one {fuel main : Nat} {s : State} {alive : Nat → Prop} (hm : alive main)
    {log : List (Nat × Request × Nat)} {c : Conf} (h : Steps tm fuel main false (start s alive) log c) (hq : c.Quiet) :
    OneByOne tm fuel s log c.s := by
  obtain ⟨t, h1, h2, _⟩ := serial_steps hm h
  rw [h2 hq]
  exact h1

/-- **C218** So calls go to the newest patch, whichever tools have been at work. -/
theorem C218_calls {m₀ : Mem} {F slot : Nat → Prop} (htl : tm.length = 44) (hI : Image m₀ F slot) {fuel main : Nat} {alive : Nat → Prop} (hm : alive main)
    {log : List (Nat × Request × Nat)} {c : Conf} (h : Steps tm fuel main false (start (State.init m₀) alive) log c) (hq : c.Quiet)
    (hfit : ∀ x ∈ log, Fits F slot x.2.1) (hh : healthy c.s.err) (f : Nat) (hf : F f) :
    callDest tm (entryOff m₀ f) c.s.mem f = some ((replacement (trackAll [] (log.map (·.2.1)) (log.map (·.2.2))) f).getD (body m₀ f)) := by
  refine C161_calls_reach_newest htl hI fuel _ (fun r hr => ?_) c.s _ (C218_one_by_one hm h hq) hh f hf
  obtain ⟨x, hx, rfl⟩ := List.mem_map.1 hr
  exact hfit x hx

/-- **C218** The steps are enough: a tool outside can get through whenever no other tool has a thread. -/
theorem C218_gets_through {fuel main : Nat} {crash : Bool} {c : Conf} {i : Nat} (hp : c.phase i = .out)
    (hfree : ∀ t, c.alive t → c.tracer t = none) (ts : List Nat) (hts : ∀ t, c.alive t → t ∈ ts)
    (r : Request) (s' : State) (a : Nat) (hs : serve tm fuel c.s r = some (s', a)) :
    ∃ d, Steps tm fuel main crash c [(i, r, a)] d ∧ d.s = s' ∧ d.alive = c.alive ∧ (∀ t, d.alive t → d.tracer t = none) ∧ d.phase = c.phase := by
  have h1 := Steps.one (Step.begin (tm := tm) (fuel := fuel) (main := main) (crash := crash) c i hp)
  obtain ⟨tr, h2, _, h4⟩ := attach_steps (tm := tm) (fuel := fuel) (main := main) (crash := crash) i ts { c with phase := upd c.phase i .scan } (upd_self ..)
    (fun t ht => .inl (hfree t ht))
  have h5 := Steps.one (Step.enter (tm := tm) (fuel := fuel) (main := main) (crash := crash)
    { c with tracer := tr, phase := upd c.phase i .scan } i r (upd_self ..) (fun t ht => h4 t ht (.inl (hts t ht))))
  simp only [upd_upd] at h5
  have h6 := section_steps (tm := tm) (fuel := fuel) (main := main) (crash := crash) i r { c with tracer := tr, phase := upd c.phase i (.crit (.call r)) }
    (upd_self ..) s' a hs
  simp only [upd_upd] at h6
  have h7 := Steps.one (Step.die (tm := tm) (fuel := fuel) (main := main) (crash := crash)
    { c with s := s', tracer := tr, phase := upd c.phase i .release } i (.inr (fun k => by simp [upd_self])))
  simp only [upd_upd] at h7
  refine ⟨_, Steps.trans (Steps.trans (Steps.trans (Steps.trans h1 h2) h5) h6) h7, rfl, rfl, fun t ht => ?_, upd_same _ _ _ hp⟩
  simp [h4 t ht (.inl (hts t ht))]

theorem more {fuel main : Nat} {crash : Bool} {b c : Conf} {l : List (Nat × Request × Nat)} {i : Nat} (h : Steps tm fuel main crash b l c) (hp : c.phase i = .out)
    (hfree : ∀ t, c.alive t → c.tracer t = none) (ts : List Nat) (hts : ∀ t, c.alive t → t ∈ ts)
    (r : Request) (s' : State) (a : Nat) (hs : serve tm fuel c.s r = some (s', a)) :
    ∃ d, Steps tm fuel main crash b (l ++ [(i, r, a)]) d ∧ d.s = s' ∧ d.phase = c.phase := by
  obtain ⟨d, h1, h2, _, _, h3⟩ := C218_gets_through (main := main) (crash := crash) hp hfree ts hts r s' a hs
  exact ⟨d, Steps.trans h h1, h2, h3⟩

/-- Two tools fight for two threads, each attaching one. The first gives up. The second gets through, then another one does. -/
theorem demo_trace : ∃ c log, Steps demoT 10 1 false (start (State.init demoMem) (fun t => t = 1 ∨ t = 2)) log c ∧ c.Quiet ∧
    log.map (fun x => (x.1, x.2.2)) = [(8, 0), (9, 0)] ∧ callDest demoT 0 c.s.mem 0x1000 = some 0x700002 ∧ callDest demoT 8 c.s.mem 0x2000 = some 0x700001 := by
  let r₁ : Request := .apply demoWorld (.ok (demoPatch 1 libA [0x1000, 0x2000] [] demoRefs))
  let r₂ : Request := .apply demoWorld (.ok (demoPatch 2 libA [0x1000] [[1]] []))
  have e : ((serve demoT 10 (State.init demoMem) r₁).bind fun p => (serve demoT 10 p.1 r₂).map fun q =>
      (p.2, q.2, callDest demoT 0 q.1.mem 0x1000, callDest demoT 8 q.1.mem 0x2000)) = some (0, 0, some 0x700002, some 0x700001) := by decide +kernel
  cases h1 : serve demoT 10 (State.init demoMem) r₁ with
  | none => rw [h1] at e; cases e
  | some p =>
    obtain ⟨s1, a1⟩ := p
    rw [h1, Option.bind_some] at e
    cases h2 : serve demoT 10 s1 r₂ with
    | none => rw [h2] at e; cases e
    | some q =>
      obtain ⟨s2, a2⟩ := q
      rw [h2] at e
      simp only [Option.map_some, Option.some.injEq, Prod.mk.injEq] at e
      obtain ⟨rfl, rfl, e3, e4⟩ := e
      let c0 := start (State.init demoMem) (fun t => t = 1 ∨ t = 2)
      have b7 := Steps.one (Step.begin (tm := demoT) (fuel := 10) (main := 1) (crash := false) c0 7 rfl)
      have b8 := Steps.trans b7 (Steps.one (Step.begin _ 8 rfl))
      have t1 := Steps.trans b8 (Steps.one (Step.attach _ 7 1 rfl (.inl rfl) rfl))
      have t2 := Steps.trans t1 (Steps.one (Step.attach _ 8 2 rfl (.inr rfl) rfl))
      have f7 := Steps.trans t2 (Steps.one (Step.fail _ 7 rfl))
      have d7 := Steps.trans f7 (Steps.one (Step.detach _ 7 1 rfl rfl))
      have g7 := Steps.trans d7 (Steps.one (Step.home _ 7 rfl))
      have t8 := Steps.trans g7 (Steps.one (Step.attach _ 8 1 rfl (.inl rfl) rfl))
      have e8 := Steps.trans t8 (Steps.one (Step.enter _ 8 r₁ rfl (by rintro t (rfl | rfl) <;> rfl)))
      have w8 := Steps.trans e8 (section_steps 8 r₁ _ rfl s1 0 h1)
      have x8 := Steps.trans w8 (Steps.one (Step.die _ 8 (.inr (fun k => by simp [upd_self]))))
      obtain ⟨d, hd, hs, hph⟩ := more (i := 9) x8 (by rfl) (by rintro t (rfl | rfl) <;> rfl) [1, 2] (by rintro t (rfl | rfl) <;> simp) r₂ s2 0 h2
      refine ⟨d, _, hd, ?_, rfl, by rw [hs]; exact e3, by rw [hs]; exact e4⟩
      rintro j ⟨k, hk⟩
      rw [hph] at hk
      simp only [upd, start, c0] at hk
      repeat' split at hk
      all_goals cases hk

/-- **C218** Not if tools are killed inside: what is left is then not the work of the tools that got through (here none). -/
theorem C218_killed : ∃ (s : State) (c : Conf), Steps demoT 10 1 true (start s (fun t => t = 1)) [] c ∧ c.Quiet ∧ ¬ OneByOne demoT 10 s [] c.s := by
  let r : Request := .apply demoWorld (.ok (demoPatch 1 libA [0x1000] [] []))
  let c0 := start (State.init demoMem) (fun t => t = 1)
  have e : ((Run.raw demoT 10 (State.init demoMem) r).map fun p => (p.2, decide (p.1.q.num = 0))) = some (0, false) := by decide +kernel
  cases hr : Run.raw demoT 10 (State.init demoMem) r with
  | none => rw [hr] at e; cases e
  | some p =>
    obtain ⟨s1, a⟩ := p
    rw [hr] at e
    simp only [Option.map_some, Option.some.injEq, Prod.mk.injEq] at e
    obtain ⟨rfl, hn⟩ := e
    have b := Steps.one (Step.begin (tm := demoT) (fuel := 10) (main := 1) (crash := true) c0 7 rfl)
    have t := Steps.trans b (Steps.one (Step.attach _ 7 1 rfl rfl rfl))
    have en := Steps.trans t (Steps.one (Step.enter _ 7 r rfl (by rintro t rfl; rfl)))
    have w := Steps.trans en (Steps.one (Step.work _ 7 (.call r) (.fetch r 0) s1 rfl (by
      show secStep demoT 10 (State.init demoMem) (.call r) = _
      simp only [secStep, hr]; rfl)))
    have d := Steps.trans w (Steps.one (Step.die _ 7 (.inl rfl)))
    refine ⟨State.init demoMem, _, d, ?_, ?_⟩
    · rintro j ⟨k, hk⟩
      simp only [upd, start, c0] at hk
      repeat' split at hk
      all_goals cases hk
    · intro h
      simp only [OneByOne, List.map_nil, serveAll, Option.some.injEq, Prod.mk.injEq, and_true] at h
      have : s1.q.num = 0 := by
        have h' : State.init demoMem = s1 := h
        rw [← h']; rfl
      simp [this] at hn

/-! ### Further cases -/

example : ∃ c log, Steps demoT 10 1 false (start (State.init demoMem) (fun t => t = 1 ∨ t = 2)) log c ∧ OneByOne demoT 10 (State.init demoMem) log c.s := by
  obtain ⟨c, log, h, hq, -⟩ := demo_trace
  exact ⟨c, log, h, C218_one_by_one (.inl rfl) h hq⟩

/-- A tool at work in a process with two threads. -/
theorem demo_inside : ∃ c : Conf, Steps demoT 10 1 false (start (State.init demoMem) (fun t => t = 1 ∨ t = 2)) [] c ∧ c.Inside 7 := by
  let c0 := start (State.init demoMem) (fun t => t = 1 ∨ t = 2)
  have b := Steps.one (Step.begin (tm := demoT) (fuel := 10) (main := 1) (crash := false) c0 7 rfl)
  have t1 := Steps.trans b (Steps.one (Step.attach _ 7 1 rfl (.inl rfl) rfl))
  have t2 := Steps.trans t1 (Steps.one (Step.attach _ 7 2 rfl (.inr rfl) rfl))
  have e := Steps.trans t2 (Steps.one (Step.enter _ 7 (.check [1]) rfl (by rintro t (rfl | rfl) <;> rfl)))
  exact ⟨_, e, ⟨_, rfl⟩⟩

example : ∃ c : Conf, c.Inside 7 ∧ (∀ j, c.Inside j → j = 7) ∧ ∀ t, ¬ c.Running t := by
  obtain ⟨c, h, hi⟩ := demo_inside
  exact ⟨c, hi, C218_one_inside (.inl rfl) h hi⟩

/-! ### A tool killed while at work, in general -/


/-- A tool that is stopping threads gets all those of a list. -/
theorem attach_all {fuel main : Nat} {crash : Bool} {i : Nat} (ts : List Nat) (c : Conf) (hp : c.phase i = .scan)
    (h : ∀ t ∈ ts, c.alive t ∧ (c.tracer t = none ∨ c.tracer t = some i)) :
    ∃ tr, Steps tm fuel main crash c [] { c with tracer := tr } ∧ (∀ t ∈ ts, tr t = some i) ∧
      ∀ t, t ∉ ts → tr t = c.tracer t := by
  induction ts generalizing c with
  | nil => exact ⟨c.tracer, .refl, by simp, by simp⟩
  | cons t ts ih =>
    obtain ⟨ha, hn | hn⟩ := h t (by simp)
    · have st : Step tm fuel main crash c none { c with tracer := upd c.tracer t (some i) } := .attach c i t hp ha hn
      obtain ⟨tr, s1, s2, s3⟩ := ih { c with tracer := upd c.tracer t (some i) } hp (by
        intro u hu
        refine ⟨(h u (by simp [hu])).1, ?_⟩
        simp only [upd]
        split
        · exact .inr rfl
        · exact (h u (by simp [hu])).2)
      refine ⟨tr, Steps.trans (Steps.one st) s1, ?_, ?_⟩
      · intro u hu
        by_cases hu' : u ∈ ts
        · exact s2 u hu'
        · rw [s3 u hu']
          rcases List.mem_cons.mp hu with rfl | hu
          · simp [upd]
          · exact absurd hu hu'
      · intro u hu
        simp only [List.mem_cons, not_or] at hu
        rw [s3 u hu.2]
        simp [upd, hu.1]
    · obtain ⟨tr, s1, s2, s3⟩ := ih c hp (fun u hu => h u (by simp [hu]))
      refine ⟨tr, s1, ?_, ?_⟩
      · intro u hu
        by_cases hu' : u ∈ ts
        · exact s2 u hu'
        · rw [s3 u hu']
          rcases List.mem_cons.mp hu with rfl | hu
          · exact hn
          · exact absurd hu hu'
      · intro u hu
        simp only [List.mem_cons, not_or] at hu
        exact s3 u hu.2

/-- **C218** (negation) Whatever the tools have done so far, one after the other, and whatever the process is: once a request that
changes anything in libpulp has run, killing the tool leaves all threads running on what is not the work of the tools that got through. -/
theorem C218_killed_always (tm : List UInt8) (fuel main i : Nat) (s s' : State) (alive : Nat → Prop) (log : List (Nat × Request × Nat)) (c : Conf)
    (h : Steps tm fuel main true (start s alive) log c) (h1 : OneByOne tm fuel s log c.s)
    (ts : List Nat) (hts : ∀ t, c.alive t ↔ t ∈ ts) (hout : ∀ j, c.phase j = .out) (hfree : ∀ t, c.tracer t = none)
    (r : Request) (a : Nat) (hr : Run.raw tm fuel c.s r = some (s', a)) (hne : s' ≠ c.s) :
    ∃ d, Steps tm fuel main true (start s alive) log d ∧ d.Quiet ∧ (∀ t ∈ ts, d.Running t) ∧ d.s = s' ∧ ¬ OneByOne tm fuel s log d.s := by
  have b : Steps tm fuel main true c [] { c with phase := upd c.phase i .scan } := Steps.one (.begin c i (hout i))
  obtain ⟨tr, t1, t2, t3⟩ := attach_all (tm := tm) (fuel := fuel) (main := main) (crash := true) (i := i) ts
    { c with phase := upd c.phase i .scan } (by simp [upd]) (fun t ht => ⟨(hts t).mpr ht, .inl (hfree t)⟩)
  have en := Steps.one (Step.enter (tm := tm) (fuel := fuel) (main := main) (crash := true)
    { c with phase := upd c.phase i .scan, tracer := tr } i r (by simp [upd]) (fun t ht => t2 t ((hts t).mp ht)))
  have w := Steps.one (Step.work (tm := tm) (fuel := fuel) (main := main) (crash := true)
    { c with phase := upd (upd c.phase i .scan) i (.crit (.call r)), tracer := tr } i (.call r)
    (if queues r then .fetch r a else .finished r a) s' (by simp [upd]) (by simp only [secStep, hr]))
  have d := Steps.one (Step.die (tm := tm) (fuel := fuel) (main := main) (crash := true)
    { c with s := s', phase := upd (upd (upd c.phase i .scan) i (.crit (.call r))) i (.crit (if queues r then .fetch r a else .finished r a)), tracer := tr }
    i (.inl rfl))
  have all := Steps.trans h (Steps.trans b (Steps.trans t1 (Steps.trans en (Steps.trans w d))))
  simp only [List.append_nil, Option.toList_none] at all
  refine ⟨_, all, ?_, ?_, rfl, ?_⟩
  · rintro j ⟨k, hk⟩
    simp only [upd] at hk
    split at hk
    · cases hk
    · rw [hout j] at hk; cases hk
  · intro t ht
    refine ⟨(hts t).mpr ht, ?_⟩
    simp [t2 t ht]
  · intro h2
    unfold OneByOne at h1 h2
    rw [h1] at h2
    simp only [Option.some.injEq, Prod.mk.injEq, and_true] at h2
    exact hne h2.symm

/-- A process with two threads and a first patch. -/
example : ∃ d, Steps demoT 10 1 true (start (State.init demoMem) (fun t => t ∈ [1, 2])) [] d ∧ d.Quiet ∧
    (∀ t ∈ [1, 2], d.Running t) ∧ ¬ OneByOne demoT 10 (State.init demoMem) [] d.s := by
  have e : ((Run.raw demoT 10 (State.init demoMem) (.apply demoWorld (.ok (demoPatch 1 libA [0x1000] [] [])))).map
      fun p => decide (p.1.q.num = 0)) = some false := by decide +kernel
  cases hr : Run.raw demoT 10 (State.init demoMem) (.apply demoWorld (.ok (demoPatch 1 libA [0x1000] [] []))) with
  | none => rw [hr] at e; cases e
  | some p =>
    rw [hr] at e
    simp only [Option.map_some, Option.some.injEq, decide_eq_false_iff_not] at e
    obtain ⟨d, h1, h2, h3, -, h5⟩ := C218_killed_always demoT 10 1 7 (State.init demoMem) p.1 (fun t => t ∈ [1, 2]) [] _ .refl rfl
      [1, 2] (fun _ => Iff.rfl) (fun _ => rfl) (fun _ => rfl) _ p.2 hr (by rintro h; rw [h] at e; exact e rfl)
    exact ⟨d, h1, h2, h3, h5⟩

/-- One tool got through in a process with two threads: where calls go. -/
example : ∃ c log, Steps demoT 10 1 false (start (State.init demoMem) (fun t => t = 1 ∨ t = 2)) log c ∧
    callDest demoT 0 c.s.mem 0x1000 = some 0x700001 := by
  let r : Request := .apply demoWorld (.ok (demoPatch 1 libA [0x1000] [] []))
  have e : ((Power.serve demoT 10 (State.init demoMem) r).map fun p => (p.2, p.1.err)) = some (0, ENONE) := by decide +kernel
  cases hr : Power.serve demoT 10 (State.init demoMem) r with
  | none => rw [hr] at e; cases e
  | some p =>
    obtain ⟨s1, a⟩ := p
    rw [hr] at e
    simp only [Option.map_some, Option.some.injEq, Prod.mk.injEq] at e
    obtain ⟨rfl, he⟩ := e
    obtain ⟨d, h1, h2, -, -, h3⟩ := C218_gets_through (main := 1) (crash := false) (i := 7)
      (c := start (State.init demoMem) (fun t => t = 1 ∨ t = 2)) rfl (fun _ _ => rfl) [1, 2] (by rintro t (rfl | rfl) <;> simp) r s1 0 hr
    refine ⟨d, _, h1, ?_⟩
    have hc := C218_calls demo_t demo_image (.inl rfl) h1 (by rintro j ⟨k, hk⟩; rw [h3] at hk; cases hk) (by
      intro x hx
      rw [List.mem_singleton.mp hx]
      exact demo_fits _ _ _ _ _ (by simp [demoF]) (by simp)) (.inl (by rw [h2]; exact he)) 0x1000 (.inl rfl)
    rw [demo_off.1] at hc
    rw [hc]
    decide +kernel

end Verif.Power.Crew
