import Verif.PpcMidway.Lemmas

/-! Property C204: on POWER, a thread that is entering a function while patches come and go. -/

namespace Verif.PpcMidway

open Verif.Runtime (State Request demoWorld demoPatch demoF demoSlot libA)
open Verif.Runtime.Spec (Patch track trackAll replacement healthy)
open Verif.Midway.Spec (versions Gradual Current)
open Verif.Power (serve serveAll serveAll_inv init_inv demoMem demoT demo_t demo_image demo_fits)
open Power.Spec (entryOff body Image Fits)

variable {t : List UInt8}

/-- **C204** (for requests that add or remove at most one version of the function each.)  On POWER, a thread that has called a
livepatchable function and is stopped and continued, at any of the instructions up to where the trampoline has loaded
the address to go to, for any number of requests: it is never stuck, it is through after at most sixteen instructions of its own, and it
goes on where calls of the function went at some moment between its call and now.
Missing for the full statement: `--revert-all` of several patches of one function (`C204_revert_all_stale`). -/
theorem C204_thread_continues_partial (ht : t.length = 44) {m₀ : Mem} {F slot : Nat → Prop} (hI : Image m₀ F slot) (fuel : Nat)
    (reqs : List Request) (hfit : ∀ r ∈ reqs, Fits F slot r) (s₀ : State) (as : List Nat)
    (h₀ : serveAll t fuel (State.init m₀) reqs = some (s₀, as)) (f : Nat) (hf : F f)
    (s ps pl n ms) (hc : Call t fuel m₀ F slot f s₀ (trackAll [] reqs as) s ps pl n ms) (hh : healthy s.err) (hg : Gradual f ms) :
    (n ≤ 15 ∧ ∃ pl', next t m₀ s.mem f pl = some pl') ∨
    (n ≤ 16 ∧ ∃ g, pl = .done g ∧ ∃ q ∈ ms, Current (body m₀ f) f g q) := by
  obtain ⟨hinv, -, hw⟩ := call_where ht hI hf (serveAll_inv ht hI reqs hfit _ _ _ _ (init_inv hI) h₀) hc
  have hw := hw hh
  rcases where_next ht hI hf hinv hh hw with h | ⟨g, rfl⟩
  · exact Or.inl h
  · cases hw with
    | inside _ b _ _ hb => cases hb
    | done _ _ hn hl hc => exact Or.inr ⟨hn, g, rfl, hc hg⟩

/-- **C204** for every request, `--revert-all` included: never stuck, through after at most sixteen instructions, and then in the original
if that was in force at some moment since the call, or in a replacement by a patch applied at some moment since the call. -/
theorem C204_always_a_version (ht : t.length = 44) {m₀ : Mem} {F slot : Nat → Prop} (hI : Image m₀ F slot) (fuel : Nat)
    (reqs : List Request) (hfit : ∀ r ∈ reqs, Fits F slot r) (s₀ : State) (as : List Nat)
    (h₀ : serveAll t fuel (State.init m₀) reqs = some (s₀, as)) (f : Nat) (hf : F f)
    (s ps pl n ms) (hc : Call t fuel m₀ F slot f s₀ (trackAll [] reqs as) s ps pl n ms) (hh : healthy s.err) :
    (n ≤ 15 ∧ ∃ pl', next t m₀ s.mem f pl = some pl') ∨
    (n ≤ 16 ∧ ∃ g, pl = .done g ∧ ∃ q ∈ ms, (g = body m₀ f ∧ replacement q f = none) ∨ g ∈ versions q f) := by
  obtain ⟨hinv, -, hw⟩ := call_where ht hI hf (serveAll_inv ht hI reqs hfit _ _ _ _ (init_inv hI) h₀) hc
  have hw := hw hh
  rcases where_next ht hI hf hinv hh hw with h | ⟨g, rfl⟩
  · exact Or.inl h
  · cases hw with
    | inside _ b _ _ hb => cases hb
    | done _ _ hn hl hc => exact Or.inr ⟨hn, g, rfl, hl⟩

/-! ### Executions -/

/-- `k` instructions of a thread. -/
def run (t : List UInt8) (m₀ m : Mem) (f : Nat) : (k : Nat) → Place → Option Place
  | 0, pl => some pl
  | k + 1, pl => (next t m₀ m f pl).bind (run t m₀ m f k)

theorem call_run {fuel m₀ F slot f s₀ ps₀ s ps n ms} (k : Nat) {pl pl'} (h : Call t fuel m₀ F slot f s₀ ps₀ s ps pl n ms)
    (hr : run t m₀ s.mem f k pl = some pl') : Call t fuel m₀ F slot f s₀ ps₀ s ps pl' (n + k) ms := by
  induction k generalizing pl n with
  | zero =>
    simp only [run, Option.some.injEq] at hr
    subst hr
    exact h
  | succ k ih =>
    simp only [run] at hr
    cases hn : next t m₀ s.mem f pl with
    | none => rw [hn] at hr; cases hr
    | some p =>
      rw [hn] at hr
      have := ih (.step h hn) hr
      rw [show n + 1 + k = n + (k + 1) by omega] at this
      exact this

/-- A history, a thread executing `k` instructions, one more request, and as many instructions as it takes. -/
theorem execution {fuel reqs as r a k j pl pl' e} {f : Nat} (hr : Fits demoF demoSlot r)
    (he : (serveAll demoT fuel (State.init demoMem) reqs).bind (fun p => (serve demoT fuel p.1 r).bind fun q =>
      (run demoT demoMem p.1.mem f k (first (entryOff demoMem f))).bind fun x =>
        (run demoT demoMem q.1.mem f j x).map fun y => (p.2, q.2, q.1.err, x, y)) = some (as, a, e, pl, pl')) :
    ∃ s₀ s, serveAll demoT fuel (State.init demoMem) reqs = some (s₀, as) ∧
      Call demoT fuel demoMem demoF demoSlot f s₀ (trackAll [] reqs as) s (track (trackAll [] reqs as) r a) pl' (0 + k + j)
        [track (trackAll [] reqs as) r a, trackAll [] reqs as] ∧ s.err = e := by
  cases h0 : serveAll demoT fuel (State.init demoMem) reqs with
  | none => rw [h0] at he; cases he
  | some p =>
    obtain ⟨s₀, as'⟩ := p
    rw [h0, Option.bind_some] at he
    cases h1 : serve demoT fuel s₀ r with
    | none => simp only [h1] at he; cases he
    | some q =>
      obtain ⟨s, a'⟩ := q
      simp only [h1, Option.bind_some] at he
      cases h2 : run demoT demoMem s₀.mem f k (first (entryOff demoMem f)) with
      | none => rw [h2] at he; cases he
      | some x =>
        rw [h2, Option.bind_some] at he
        cases h3 : run demoT demoMem s.mem f j x with
        | none => rw [h3] at he; cases he
        | some y =>
          rw [h3] at he
          simp only [Option.map_some, Option.some.injEq, Prod.mk.injEq] at he
          obtain ⟨rfl, rfl, rfl, rfl, rfl⟩ := he
          exact ⟨s₀, s, rfl, call_run j (.request (call_run k .start h2) hr h1) h3, rfl⟩

/-- Patch 1 is applied, a thread calls 0x2000 and is in the middle of the stub, patch 2 is applied, the thread continues: it gets to the
replacement by patch 2. -/
theorem demo_overtaken : ∃ s₀ s ps ms,
    serveAll demoT 10 (State.init demoMem) [.apply demoWorld (.ok (demoPatch 1 libA [0x2000] [] []))] = some (s₀, [0]) ∧
    Call demoT 10 demoMem demoF demoSlot 0x2000 s₀ (trackAll [] [.apply demoWorld (.ok (demoPatch 1 libA [0x2000] [] []))] [0])
      s ps (.done 0x700002) 16 ms ∧ healthy s.err ∧ Gradual 0x2000 ms := by
  obtain ⟨s₀, s, h0, hc, he⟩ := execution (fuel := 10) (reqs := [.apply demoWorld (.ok (demoPatch 1 libA [0x2000] [] []))])
    (r := .apply demoWorld (.ok (demoPatch 2 libA [0x2000] [] []))) (as := [0]) (a := 0) (k := 8) (j := 8) (pl := .stub 5) (pl' := .done 0x700002)
    (e := ENONE) (f := 0x2000) (demo_fits _ _ _ _ _ (by simp [demoF]) (by simp)) (by decide +kernel)
  exact ⟨s₀, s, _, _, h0, hc, Or.inl he, by decide +kernel, trivial⟩

theorem demo_reqs_fit (n : UInt8) : ∀ r ∈ [Request.apply demoWorld (.ok (demoPatch n libA [0x2000] [] []))], Fits demoF demoSlot r := by
  intro r hr
  rw [List.mem_singleton] at hr
  subst hr
  exact demo_fits _ _ _ _ _ (by simp [demoF]) (by simp)

example : ∃ ms : List (List Patch), ∃ q ∈ ms, Current (body demoMem 0x2000) 0x2000 0x700002 q := by
  obtain ⟨s₀, s, ps, ms, h0, hc, hh, hg⟩ := demo_overtaken
  refine ⟨ms, ?_⟩
  rcases C204_thread_continues_partial demo_t demo_image 10 _ (demo_reqs_fit 1) s₀ _ h0 0x2000 (Or.inr rfl) s ps _ _ ms hc hh hg with
    ⟨h, _⟩ | ⟨_, g, e, h⟩
  · omega
  · injection e with e
    subst e
    exact h

example : ∃ ms : List (List Patch), ∃ q ∈ ms, (0x700002 = body demoMem 0x2000 ∧ replacement q 0x2000 = none) ∨ 0x700002 ∈ versions q 0x2000 := by
  obtain ⟨s₀, s, ps, ms, h0, hc, hh, hg⟩ := demo_overtaken
  refine ⟨ms, ?_⟩
  rcases C204_always_a_version demo_t demo_image 10 _ (demo_reqs_fit 1) s₀ _ h0 0x2000 (Or.inr rfl) s ps _ _ ms hc hh with
    ⟨h, _⟩ | ⟨_, g, e, h⟩
  · omega
  · injection e with e
    subst e
    exact h

/-- Negation of **C204** for `--revert-all`: patch 2 has superseded patch 1 when the thread calls; while it is in the stub, both
patches are reverted at once; it continues in the replacement by patch 1, where calls of the function went at no moment since its call. -/
theorem C204_revert_all_stale : ∃ s₀ s ps g ms,
    serveAll demoT 10 (State.init demoMem) [.apply demoWorld (.ok (demoPatch 1 libA [0x2000] [] [])),
      .apply demoWorld (.ok (demoPatch 2 libA [0x2000] [] []))] = some (s₀, [0, 0]) ∧
    Call demoT 10 demoMem demoF demoSlot 0x2000 s₀ (trackAll [] [.apply demoWorld (.ok (demoPatch 1 libA [0x2000] [] [])),
      .apply demoWorld (.ok (demoPatch 2 libA [0x2000] [] []))] [0, 0]) s ps (.done g) 16 ms ∧
    healthy s.err ∧ g = 0x700001 ∧ ∀ q ∈ ms, ¬ Current (body demoMem 0x2000) 0x2000 g q := by
  obtain ⟨s₀, s, h0, hc, he⟩ := execution (fuel := 10) (reqs := [.apply demoWorld (.ok (demoPatch 1 libA [0x2000] [] [])),
      .apply demoWorld (.ok (demoPatch 2 libA [0x2000] [] []))])
    (r := .revertAll demoWorld libA) (as := [0, 0]) (a := 0) (k := 8) (j := 8) (pl := .stub 5) (pl' := .done 0x700001)
    (e := ENONE) (f := 0x2000) trivial (by decide +kernel)
  refine ⟨s₀, s, _, _, _, h0, hc, Or.inl he, rfl, ?_⟩
  intro q hq
  simp only [List.mem_cons, List.not_mem_nil, or_false] at hq
  rcases hq with rfl | rfl <;> unfold Current <;> decide +kernel

end Verif.PpcMidway
