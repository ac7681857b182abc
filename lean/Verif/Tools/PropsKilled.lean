import Verif.Tools.Props

/-! # A tool killed while at work, in general (C133) -/

namespace Verif.Tools

open Verif.Runtime (State Request serveAll)

/-- A tool that is stopping threads gets all those of a list. -/
theorem attach_all {fuel main : Nat} {crash : Bool} {i : Nat} (ts : List Nat) (c : Conf) (hp : c.phase i = .scan)
    (h : ∀ t ∈ ts, c.alive t ∧ (c.tracer t = none ∨ c.tracer t = some i)) :
    ∃ tr, Steps fuel main crash c [] { c with tracer := tr } ∧ (∀ t ∈ ts, tr t = some i) ∧
      ∀ t, t ∉ ts → tr t = c.tracer t := by
  induction ts generalizing c with
  | nil => exact ⟨c.tracer, .refl, by simp, by simp⟩
  | cons t ts ih =>
    obtain ⟨ha, hn | hn⟩ := h t (by simp)
    · have st : Step fuel main crash c none { c with tracer := upd c.tracer t (some i) } := .attach c i t hp ha hn
      obtain ⟨tr, s1, s2, s3⟩ := ih { c with tracer := upd c.tracer t (some i) } hp (by
        intro u hu
        refine ⟨(h u (by simp [hu])).1, ?_⟩
        simp only [upd]
        split
        · exact .inr rfl
        · exact (h u (by simp [hu])).2)
      refine ⟨tr, Steps.trans (Steps.one st) s1, ?_, ?_⟩
      · intro u hu
        by_cases hu' : u ∈ ts
        · exact s2 u hu'
        · rw [s3 u hu']
          rcases List.mem_cons.mp hu with rfl | hu
          · simp [upd]
          · exact absurd hu hu'
      · intro u hu
        simp only [List.mem_cons, not_or] at hu
        rw [s3 u hu.2]
        simp [upd, hu.1]
    · obtain ⟨tr, s1, s2, s3⟩ := ih c hp (fun u hu => h u (by simp [hu]))
      refine ⟨tr, s1, ?_, ?_⟩
      · intro u hu
        by_cases hu' : u ∈ ts
        · exact s2 u hu'
        · rw [s3 u hu']
          rcases List.mem_cons.mp hu with rfl | hu
          · exact hn
          · exact absurd hu hu'
      · intro u hu
        simp only [List.mem_cons, not_or] at hu
        exact s3 u hu.2

/-- **C133** (negation) Whatever the tools have done so far, one after the other, and whatever the process is: once a request that
changes anything in libpulp has run, killing the tool leaves all threads running on what is not the work of the tools that got through. -/
theorem C133_killed_always (fuel main i : Nat) (s s' : State) (alive : Nat → Prop) (log : List (Nat × Request × Nat)) (c : Conf)
    (h : Steps fuel main true (start s alive) log c) (h1 : OneByOne fuel s log c.s)
    (ts : List Nat) (hts : ∀ t, c.alive t ↔ t ∈ ts) (hout : ∀ j, c.phase j = .out) (hfree : ∀ t, c.tracer t = none)
    (r : Request) (a : Nat) (hr : Session.raw fuel c.s r = some (s', a)) (hne : s' ≠ c.s) :
    ∃ d, Steps fuel main true (start s alive) log d ∧ d.Quiet ∧ (∀ t ∈ ts, d.Running t) ∧ d.s = s' ∧ ¬ OneByOne fuel s log d.s := by
  have b : Steps fuel main true c [] { c with phase := upd c.phase i .scan } := Steps.one (.begin c i (hout i))
  obtain ⟨tr, t1, t2, t3⟩ := attach_all (fuel := fuel) (main := main) (crash := true) (i := i) ts
    { c with phase := upd c.phase i .scan } (by simp [upd]) (fun t ht => ⟨(hts t).mpr ht, .inl (hfree t)⟩)
  have en := Steps.one (Step.enter (fuel := fuel) (main := main) (crash := true)
    { c with phase := upd c.phase i .scan, tracer := tr } i r (by simp [upd]) (fun t ht => t2 t ((hts t).mp ht)))
  have w := Steps.one (Step.work (fuel := fuel) (main := main) (crash := true)
    { c with phase := upd (upd c.phase i .scan) i (.crit (.call r)), tracer := tr } i (.call r)
    (if queues r then .fetch r a else .finished r a) s' (by simp [upd]) (by simp only [Sec.step, hr]))
  have d := Steps.one (Step.die (fuel := fuel) (main := main) (crash := true)
    { c with s := s', phase := upd (upd (upd c.phase i .scan) i (.crit (.call r))) i (.crit (if queues r then .fetch r a else .finished r a)), tracer := tr }
    i (.inl rfl))
  have all := Steps.trans h (Steps.trans b (Steps.trans t1 (Steps.trans en (Steps.trans w d))))
  simp only [List.append_nil, Option.toList_none] at all
  refine ⟨_, all, ?_, ?_, rfl, ?_⟩
  · rintro j ⟨k, hk⟩
    simp only [upd] at hk
    split at hk
    · cases hk
    · rw [hout j] at hk; cases hk
  · intro t ht
    refine ⟨(hts t).mpr ht, ?_⟩
    simp [t2 t ht]
  · intro h2
    unfold OneByOne at h1 h2
    rw [h1] at h2
    simp only [Option.some.injEq, Prod.mk.injEq, and_true] at h2
    exact hne h2.symm

/-- A process with two threads and a first patch. -/
example : ∃ d, Steps 10 1 true (start (State.init Runtime.demoMem) (fun t => t ∈ [1, 2])) [] d ∧ d.Quiet ∧
    (∀ t ∈ [1, 2], d.Running t) ∧ ¬ OneByOne 10 (State.init Runtime.demoMem) [] d.s := by
  have e : ((Session.raw 10 (State.init Runtime.demoMem) (.apply Runtime.demoWorld (.ok (Runtime.demoPatch 1 Runtime.libA [0x1000] [] [])))).map
      fun p => decide (p.1.q.num = 0)) = some false := by decide +kernel
  cases hr : Session.raw 10 (State.init Runtime.demoMem) (.apply Runtime.demoWorld (.ok (Runtime.demoPatch 1 Runtime.libA [0x1000] [] []))) with
  | none => rw [hr] at e; cases e
  | some p =>
    rw [hr] at e
    simp only [Option.map_some, Option.some.injEq, decide_eq_false_iff_not] at e
    obtain ⟨d, h1, h2, h3, -, h5⟩ := C133_killed_always 10 1 7 (State.init Runtime.demoMem) p.1 (fun t => t ∈ [1, 2]) [] _ .refl rfl
      [1, 2] (fun _ => Iff.rfl) (fun _ => rfl) (fun _ => rfl) _ p.2 hr (by rintro h; rw [h] at e; exact e rfl)
    exact ⟨d, h1, h2, h3, h5⟩

/-- One tool got through in a process with two threads: where calls go. -/
example : ∃ c log, Steps 10 1 false (start (State.init Runtime.demoMem) (fun t => t = 1 ∨ t = 2)) log c ∧
    X86.Spec.callDest c.s.mem 0x1000 = some 0x700001 := by
  let r : Request := .apply Runtime.demoWorld (.ok (Runtime.demoPatch 1 Runtime.libA [0x1000] [] []))
  have e : ((Runtime.serve 10 (State.init Runtime.demoMem) r).map fun p => (p.2, p.1.err)) = some (0, ENONE) := by decide +kernel
  cases hr : Runtime.serve 10 (State.init Runtime.demoMem) r with
  | none => rw [hr] at e; cases e
  | some p =>
    obtain ⟨s1, a⟩ := p
    rw [hr] at e
    simp only [Option.map_some, Option.some.injEq, Prod.mk.injEq] at e
    obtain ⟨rfl, he⟩ := e
    obtain ⟨d, h1, h2, -, -, h3⟩ := C133_gets_through (main := 1) (crash := false) (i := 7)
      (c := start (State.init Runtime.demoMem) (fun t => t = 1 ∨ t = 2)) rfl (fun _ _ => rfl) [1, 2] (by rintro t (rfl | rfl) <;> simp) r s1 0 hr
    refine ⟨d, _, h1, ?_⟩
    rw [C133_calls Runtime.demo_image (.inl rfl) h1 (by rintro j ⟨k, hk⟩; rw [h3] at hk; cases hk) (by
      intro x hx
      rw [List.mem_singleton.mp hx]
      exact Runtime.demo_fits _ _ _ _ _ (by simp [Runtime.demoF]) (by simp)) (.inl (by rw [h2]; exact he)) 0x1000 (.inl rfl)]
    decide +kernel

end Verif.Tools
