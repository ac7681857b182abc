import Verif.Midway.Lemmas

/-! Property C129: a thread that is entering a function while patches come and go. -/

namespace Verif.Midway

open Spec
open Verif.Runtime
open Verif.Runtime.Spec
open Verif.X86.Spec (body step)

/-- A thread in the entry can always execute its next instruction, and has not executed more than two. -/
theorem where_progress {m₀ F slot f s ps ms pc n} (hI : Image m₀ F slot) (hf : F f) (hinv : Inv m₀ F slot s ps)
    (hh : healthy s.err) (hw : Whole s.mem (X86.hasEndbr m₀ f) f) (h : Where m₀ f s.mem ms pc n) (hp : inPad m₀ f pc) :
    n ≤ 2 ∧ ∃ pc', step s.mem pc = some pc' := by
  obtain ⟨hr1, hr2⟩ := hI.range f hf
  have hgood := hinv.good hh
  have hent := hgood.entries f hf
  have second : ∃ pc', step s.mem (f + X86.bias (X86.hasEndbr m₀ f)) = some pc' := by
    cases hrep : Runtime.top (stackOf s.roots f) with
    | none => rw [hrep] at hent; exact ⟨_, step_plain hr2 hent hw⟩
    | some g => rw [hrep] at hent; exact ⟨_, (step_redirected hr1 hr2 hent).1⟩
  cases h with
  | entry =>
    refine ⟨by omega, ?_⟩
    cases he : X86.hasEndbr m₀ f with
    | false => rw [he] at second; exact second
    | true => exact ⟨_, X86.step_endbr (hent.endbr hr1 he) (by omega)⟩
  | second he => rw [he] at second; exact ⟨by omega, second⟩
  | tramp g _ hn ht hg _ _ => exact ⟨hn, _, step_tramp hr1 hr2 hg.1 ht⟩
  | out _ _ _ ho _ _ => exact absurd hp ho

theorem merged_whole {m₀ : Mem} {f} (h : Merged m₀ f) : Whole m₀ (X86.hasEndbr m₀ f) f := by
  unfold Merged at h
  unfold Whole
  rw [X86.body_eq, Nat.add_sub_cancel] at h
  rw [h]; decide

theorem call_facts {m₀ : Mem} {F slot : Nat → Prop} (hI : Image m₀ F slot) {fuel : Nat}
    {reqs : List Request} (hfit : ∀ r ∈ reqs, Fits m₀ F slot r) {s₀ : State} {as : List Nat}
    (h₀ : serveAll fuel (State.init m₀) reqs = some (s₀, as)) {f : Nat} (hf : F f) (hm : Merged m₀ f)
    {s ps pc n ms} (hc : Call fuel m₀ F slot f s₀ (trackAll [] reqs as) s ps pc n ms) (hh : healthy s.err) :
    Where m₀ f s.mem ms pc n ∧ (inPad m₀ f pc → n ≤ 2 ∧ ∃ pc', step s.mem pc = some pc') := by
  have hinv₀ := serveAll_inv hI reqs hfit _ _ _ _ (init_inv hI) h₀
  obtain ⟨hinv, _, h⟩ := call_where hI hf hinv₀
    (fun hh => serveAll_whole hI f hf reqs hfit _ _ _ _ (init_inv hI) (merged_whole hm) h₀ hh) hc
  obtain ⟨hw, h⟩ := h hh
  exact ⟨h, where_progress hI hf hinv hh hw h⟩

/-! ### processes for the examples -/

/-- As `Runtime.demoMem`, but the library has been through `ulp post`. -/
def postMem : Mem := fun i => if i = 0x1000 ∨ i = 0x2000 then 0x66 else 0x90

theorem post_body (f : Nat) : body postMem f = f + 2 := by
  have : X86.Spec.startsEndbr postMem f = false := by
    simp only [X86.Spec.startsEndbr, Mem.load, beq_eq_false_iff_ne]
    intro h
    have : postMem f = 0xf3 := by injection h
    unfold postMem at this
    split at this <;> simp at this
  simp [body, this]

theorem post_merged (f : Nat) (h : demoF f) : Merged postMem f := by
  unfold Merged
  rw [post_body]
  rcases h with rfl | rfl <;> decide

theorem post_image : Image postMem demoF demoSlot := by
  refine ⟨demo_image.range, fun f h => Or.inr (post_merged f h), ?_, ?_⟩
  · intro f g i hf hg h1 h2
    simp only [inPad, post_body] at h1 h2
    rcases hf with rfl | rfl <;> rcases hg with rfl | rfl <;> omega
  · intro f i hf h1 h2
    simp only [inPad, post_body] at h1
    unfold demoSlot at h2
    rcases hf with rfl | rfl <;> omega

theorem post_fits {r} (h : Fits demoMem demoF demoSlot r) : Fits postMem demoF demoSlot r := by
  have hp : ∀ f i, inPad postMem f i ↔ inPad demoMem f i := by
    intro f i; unfold inPad; rw [post_body, Runtime.demo_body]
  cases r with
  | apply w m =>
    cases m with
    | error e => trivial
    | ok m =>
      intro ht
      obtain ⟨h1, h2⟩ := h ht
      refine ⟨fun u hu => ?_, h2⟩
      rcases h1 u hu with h | ⟨a, b, c⟩
      · exact Or.inl h
      · exact Or.inr ⟨a, b, by rw [hp]; exact c⟩
  | revertAll w lib => trivial
  | check id => trivial
  | toggle => trivial

/-! ### C129 -/

/-- **C129** (for libraries that have been through `ulp post`, and requests that add or remove at most one version of the
function each.)  A thread that has called a livepatchable function and is stopped and continued, at any of the
instructions of the entry, for any number of requests: it is never stuck – while it is in the entry the next instruction is one
of the entry –, it is through the entry after at most three instructions of its own, and it goes on where calls of the
function went at some moment between its call and now.
Missing for the full statement: libraries that `ulp post` has not processed (`C129_unmerged_stuck`), and `--revert-all` of several
patches of one function (`C129_revert_all_stale`). -/
theorem C129_thread_continues_partial {m₀ : Mem} {F slot : Nat → Prop} (hI : Image m₀ F slot) (fuel : Nat)
    (reqs : List Request) (hfit : ∀ r ∈ reqs, Fits m₀ F slot r) (s₀ : State) (as : List Nat)
    (h₀ : serveAll fuel (State.init m₀) reqs = some (s₀, as)) (f : Nat) (hf : F f) (hm : Merged m₀ f)
    (s ps pc n ms) (hc : Call fuel m₀ F slot f s₀ (trackAll [] reqs as) s ps pc n ms) (hh : healthy s.err)
    (hg : Gradual f ms) :
    (inPad m₀ f pc ∧ n ≤ 2 ∧ ∃ pc', step s.mem pc = some pc') ∨
    (¬ inPad m₀ f pc ∧ n ≤ 3 ∧ ∃ q ∈ ms, Current (body m₀ f) f pc q) := by
  obtain ⟨hw, hp⟩ := call_facts hI hfit h₀ hf hm hc hh
  by_cases hi : inPad m₀ f pc
  · exact Or.inl ⟨hi, hp hi⟩
  · refine Or.inr ⟨hi, ?_⟩
    have hb := X86.body_eq m₀ f
    cases hw with
    | entry => exact absurd ⟨by omega, by omega⟩ hi
    | second he => rw [he] at hb; exact absurd ⟨by omega, by simp only [X86.bias, if_true] at hb; omega⟩ hi
    | tramp => have := (hI.range f hf).1; exact absurd ⟨by omega, by omega⟩ hi
    | out _ _ hn _ _ hc => exact ⟨hn, hc hg⟩

/-- **C129** for every request, `--revert-all` included (libraries that have been through `ulp post`): never stuck, through after
at most three instructions, and then in the original if that was in force at some moment since the call, or in a
replacement by a patch applied at some moment since the call. -/
theorem C129_always_a_version_partial {m₀ : Mem} {F slot : Nat → Prop} (hI : Image m₀ F slot) (fuel : Nat)
    (reqs : List Request) (hfit : ∀ r ∈ reqs, Fits m₀ F slot r) (s₀ : State) (as : List Nat)
    (h₀ : serveAll fuel (State.init m₀) reqs = some (s₀, as)) (f : Nat) (hf : F f) (hm : Merged m₀ f)
    (s ps pc n ms) (hc : Call fuel m₀ F slot f s₀ (trackAll [] reqs as) s ps pc n ms) (hh : healthy s.err) :
    (inPad m₀ f pc ∧ n ≤ 2 ∧ ∃ pc', step s.mem pc = some pc') ∨
    (¬ inPad m₀ f pc ∧ n ≤ 3 ∧ ∃ q ∈ ms, (pc = body m₀ f ∧ replacement q f = none) ∨ pc ∈ versions q f) := by
  obtain ⟨hw, hp⟩ := call_facts hI hfit h₀ hf hm hc hh
  by_cases hi : inPad m₀ f pc
  · exact Or.inl ⟨hi, hp hi⟩
  · refine Or.inr ⟨hi, ?_⟩
    have hb := X86.body_eq m₀ f
    cases hw with
    | entry => exact absurd ⟨by omega, by omega⟩ hi
    | second he => rw [he] at hb; exact absurd ⟨by omega, by simp only [X86.bias, if_true] at hb; omega⟩ hi
    | tramp => have := (hI.range f hf).1; exact absurd ⟨by omega, by omega⟩ hi
    | out _ _ hn _ hl _ => exact ⟨hn, hl⟩

/-- Patch 1 is applied, a thread calls 0x1000 and has jumped in front of it, patch 2 is applied, the thread continues. -/
theorem demo_overtaken : ∃ s₀ s ps pc n ms,
    serveAll 10 (State.init postMem) [.apply demoWorld (.ok (demoPatch 1 libA [0x1000] [] []))] = some (s₀, [0]) ∧
    Call 10 postMem demoF demoSlot 0x1000 s₀
      (trackAll [] [.apply demoWorld (.ok (demoPatch 1 libA [0x1000] [] []))] [0]) s ps pc n ms ∧
    healthy s.err ∧ Gradual 0x1000 ms ∧ pc = 0x700002 ∧ n = 2 := by
  have e : (serveAll 10 (State.init postMem) [.apply demoWorld (.ok (demoPatch 1 libA [0x1000] [] []))]).bind
      (fun p => (serve 10 p.1 (.apply demoWorld (.ok (demoPatch 2 libA [0x1000] [] [])))).map fun q =>
        (p.2, q.2, q.1.err, step p.1.mem 0x1000, step q.1.mem (0x1000 - 14))) =
      some ([0], 0, ENONE, some (0x1000 - 14), some 0x700002) := by decide +kernel
  cases h0 : serveAll 10 (State.init postMem) [.apply demoWorld (.ok (demoPatch 1 libA [0x1000] [] []))] with
  | none => rw [h0] at e; cases e
  | some p =>
    obtain ⟨s₀, as⟩ := p
    rw [h0, Option.bind_some] at e
    cases h1 : serve 10 s₀ (.apply demoWorld (.ok (demoPatch 2 libA [0x1000] [] []))) with
    | none => simp only [h1] at e; cases e
    | some q =>
      obtain ⟨s, a⟩ := q
      simp only [h1, Option.map_some, Option.some.injEq, Prod.mk.injEq] at e
      obtain ⟨rfl, rfl, e1, e2, e3⟩ := e
      have c1 := Call.step (fuel := 10) (m₀ := postMem) (F := demoF) (slot := demoSlot) (s₀ := s₀)
        (ps₀ := trackAll [] [.apply demoWorld (.ok (demoPatch 1 libA [0x1000] [] []))] [0]) .start
        (by unfold inPad; rw [post_body]; omega) e2
      have c2 := Call.request c1 (post_fits (demo_fits _ _ _ _ _ (by simp [demoF]) (by simp))) h1
      have c3 := Call.step c2 (by unfold inPad; rw [post_body]; omega) e3
      exact ⟨s₀, s, _, _, _, _, rfl, c3, Or.inl e1, ⟨by decide +kernel, trivial⟩, rfl, rfl⟩

example : ∃ ms : List (List Patch), ∃ q ∈ ms, Current (body postMem 0x1000) 0x1000 0x700002 q := by
  obtain ⟨s₀, s, ps, pc, n, ms, h0, hc, hh, hg, rfl, rfl⟩ := demo_overtaken
  refine ⟨ms, ?_⟩
  rcases C129_thread_continues_partial post_image 10 _ (by
      intro r hr; rw [List.mem_singleton] at hr; subst hr
      exact post_fits (demo_fits _ _ _ _ _ (by simp [demoF]) (by simp))) s₀ _ h0 0x1000 (Or.inl rfl)
      (post_merged _ (Or.inl rfl)) s ps _ _ ms hc hh hg with ⟨h, _⟩ | ⟨_, _, h⟩
  · unfold inPad at h; rw [post_body] at h; omega
  · exact h

/-- Negation of **C129** for `--revert-all`: patch 2 has superseded patch 1 when the thread calls; while it is between the two jumps
of the entry, both patches are reverted at once; it continues in the replacement by patch 1, where calls of the function
went at no moment since its call. -/
theorem C129_revert_all_stale : ∃ s₀ s ps pc n ms,
    serveAll 10 (State.init postMem) [.apply demoWorld (.ok (demoPatch 1 libA [0x1000] [] [])),
      .apply demoWorld (.ok (demoPatch 2 libA [0x1000] [] []))] = some (s₀, [0, 0]) ∧
    Call 10 postMem demoF demoSlot 0x1000 s₀
      (trackAll [] [.apply demoWorld (.ok (demoPatch 1 libA [0x1000] [] [])),
        .apply demoWorld (.ok (demoPatch 2 libA [0x1000] [] []))] [0, 0]) s ps pc n ms ∧
    healthy s.err ∧ ¬ inPad postMem 0x1000 pc ∧ pc = 0x700001 ∧
    ∀ q ∈ ms, ¬ Current (body postMem 0x1000) 0x1000 pc q := by
  have e : (serveAll 10 (State.init postMem) [.apply demoWorld (.ok (demoPatch 1 libA [0x1000] [] [])),
      .apply demoWorld (.ok (demoPatch 2 libA [0x1000] [] []))]).bind
      (fun p => (serve 10 p.1 (.revertAll demoWorld libA)).map fun q =>
        (p.2, q.2, q.1.err, step p.1.mem 0x1000, step q.1.mem (0x1000 - 14))) =
      some ([0, 0], 0, ENONE, some (0x1000 - 14), some 0x700001) := by decide +kernel
  cases h0 : serveAll 10 (State.init postMem) [.apply demoWorld (.ok (demoPatch 1 libA [0x1000] [] [])),
      .apply demoWorld (.ok (demoPatch 2 libA [0x1000] [] []))] with
  | none => rw [h0] at e; cases e
  | some p =>
    obtain ⟨s₀, as⟩ := p
    rw [h0, Option.bind_some] at e
    cases h1 : serve 10 s₀ (.revertAll demoWorld libA) with
    | none => simp only [h1] at e; cases e
    | some q =>
      obtain ⟨s, a⟩ := q
      simp only [h1, Option.map_some, Option.some.injEq, Prod.mk.injEq] at e
      obtain ⟨rfl, rfl, e1, e2, e3⟩ := e
      have c1 := Call.step (fuel := 10) (m₀ := postMem) (F := demoF) (slot := demoSlot) (s₀ := s₀)
        (ps₀ := trackAll [] [.apply demoWorld (.ok (demoPatch 1 libA [0x1000] [] [])),
          .apply demoWorld (.ok (demoPatch 2 libA [0x1000] [] []))] [0, 0]) .start
        (by unfold inPad; rw [post_body]; omega) e2
      have c2 := Call.request c1 (r := .revertAll demoWorld libA) trivial h1
      have c3 := Call.step c2 (by unfold inPad; rw [post_body]; omega) e3
      refine ⟨s₀, s, _, _, _, _, rfl, c3, Or.inl e1, by unfold inPad; rw [post_body]; omega, rfl, ?_⟩
      intro q hq
      rw [List.mem_cons, List.mem_singleton] at hq
      unfold Current
      rw [post_body]
      rcases hq with rfl | rfl <;> decide +kernel

/-- Negation of **C129** for libraries that `ulp post` has not processed (the entry is two `nop`s): a thread that is between the two
`nop`s when a patch of the function is applied finds the second byte of libpulp's jump there (0xf0, a `lock` prefix, or 0xec after
`endbr64`, the privileged `in`), not an instruction of the entry. -/
theorem C129_unmerged_stuck {m₀ : Mem} {F slot : Nat → Prop} (hI : Image m₀ F slot) (fuel : Nat)
    (reqs : List Request) (hfit : ∀ r ∈ reqs, Fits m₀ F slot r) (s₀ : State) (as : List Nat)
    (h₀ : serveAll fuel (State.init m₀) reqs = some (s₀, as)) (f : Nat) (hf : F f)
    (s ps n ms) (hc : Call fuel m₀ F slot f s₀ (trackAll [] reqs as) s ps (body m₀ f - 1) n ms) (hh : healthy s.err)
    (hr : replacement ps f ≠ none) :
    s.mem (body m₀ f - 1) = (if X86.Spec.startsEndbr m₀ f then 0xec else 0xf0) ∧ step s.mem (body m₀ f - 1) = none := by
  have hinv : Inv m₀ F slot s ps := by
    have hinv₀ := serveAll_inv hI reqs hfit _ _ _ _ (init_inv hI) h₀
    generalize body m₀ f - 1 = pc at hc
    clear hh hr
    induction hc with
    | start => exact hinv₀
    | request _ hr hs ih => exact serve_inv hI hr ih hs
    | step _ _ _ ih => exact ih
  have hgood := hinv.good hh
  have hent := hgood.entries f hf
  rw [hgood.top f] at hent
  cases hrep : replacement ps f with
  | none => exact absurd hrep hr
  | some g =>
    rw [hrep] at hent
    obtain ⟨_, _, _, _, h5⟩ := X86.redirected_parts (hI.range f hf).1 hent
    rw [X86.body_eq]
    have he : X86.Spec.startsEndbr m₀ f = X86.hasEndbr m₀ f := by
      have h1 := X86.body_eq m₀ f
      unfold body at h1
      cases hx : X86.hasEndbr m₀ f <;> cases hy : X86.Spec.startsEndbr m₀ f <;> simp_all [X86.bias]
    rw [he, show f + X86.bias (X86.hasEndbr m₀ f) + 2 - 1 = f + X86.bias (X86.hasEndbr m₀ f) + 1 by omega]
    refine ⟨h5, ?_⟩
    cases hx : X86.hasEndbr m₀ f <;> rw [hx] at h5 <;> simp [step, Mem.load, h5]

/-- It happens: a thread calls 0x1000 and executes one `nop`, patch 1 is applied. -/
example : ∃ s ps n ms, Call 10 demoMem demoF demoSlot 0x1000 (State.init demoMem) (trackAll [] [] []) s ps
      (body demoMem 0x1000 - 1) n ms ∧ healthy s.err ∧ replacement ps 0x1000 = some 0x700001 ∧
    step s.mem (body demoMem 0x1000 - 1) = none := by
  have e : (serve 10 (State.init demoMem) (.apply demoWorld (.ok (demoPatch 1 libA [0x1000] [] [])))).map
      (fun q => (q.2, q.1.err)) = some (0, ENONE) := by decide +kernel
  cases h1 : serve 10 (State.init demoMem) (.apply demoWorld (.ok (demoPatch 1 libA [0x1000] [] []))) with
  | none => rw [h1] at e; cases e
  | some q =>
    obtain ⟨s, a⟩ := q
    simp only [h1, Option.map_some, Option.some.injEq, Prod.mk.injEq] at e
    obtain ⟨rfl, e1⟩ := e
    have c1 := Call.step (fuel := 10) (m₀ := demoMem) (F := demoF) (slot := demoSlot) (s₀ := State.init demoMem)
      (ps₀ := trackAll [] [] []) .start (f := 0x1000) (pc' := 0x1001)
      (by unfold inPad; rw [Runtime.demo_body]; omega) (by decide +kernel)
    have c2 := Call.request c1 (demo_fits _ _ _ _ _ (by simp [demoF]) (by simp)) h1
    have hb : body demoMem 0x1000 - 1 = 0x1001 := by rw [Runtime.demo_body]
    rw [← hb] at c2
    exact ⟨s, _, _, _, c2, Or.inl e1, by decide +kernel,
      (C129_unmerged_stuck demo_image 10 [] (by simp) _ _ rfl 0x1000 (Or.inl rfl) s _ _ _ c2 (Or.inl e1)
        (by decide +kernel)).2⟩

example : ∃ ms : List (List Patch), ∃ q ∈ ms, (0x700002 = body postMem 0x1000 ∧ replacement q 0x1000 = none) ∨ 0x700002 ∈ versions q 0x1000 := by
  obtain ⟨s₀, s, ps, pc, n, ms, h0, hc, hh, -, rfl, rfl⟩ := demo_overtaken
  refine ⟨ms, ?_⟩
  rcases C129_always_a_version_partial post_image 10 _ (by
      intro r hr; rw [List.mem_singleton] at hr; subst hr
      exact post_fits (demo_fits _ _ _ _ _ (by simp [demoF]) (by simp))) s₀ _ h0 0x1000 (Or.inl rfl)
      (post_merged _ (Or.inl rfl)) s ps _ _ ms hc hh with ⟨h, _⟩ | ⟨_, _, h⟩
  · unfold inPad at h; rw [post_body] at h; omega
  · exact h

end Verif.Midway
