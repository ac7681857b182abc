import Verif.PowerMoment.Lemmas
import Verif.Moment.Spec
import Verif.PowerTools.Props

/-! Property C223: a listing shows the live patches of one moment on POWER. -/

namespace Verif.Power.Glance

open Verif.Moment.Spec
open Verif.Moment (View Conf quiet)
open Verif.Runtime (State Request Applied)
open Verif.Runtime.Spec (healthy replacement trackAll)
open Power.Spec (callDest entryOff body Image Fits)

variable {tm : List UInt8}

/-- **C223.**  Whatever other tools do meanwhile, even if they are killed at any time: the live patches that are shown are all those
in libpulp's list at one moment between the start and the end of the listing, and at this moment no tool was inside.  If a
read failed, they are the newest of them. -/
theorem C223_one_moment {fuel main r : Nat} {crash : Bool} {s : State} {alive : Nat → Prop} (hm : alive main)
    {l₀ l : List (Nat × Request × Nat)} {b c : Conf} (h0 : Steps tm fuel main crash r ⟨Tools.start s alive, .idle⟩ l₀ b) (hb : b.v = .idle)
    (h : Steps tm fuel main crash r b l c) {got : List Applied} {ok : Bool} (hc : c.v = .shown got ok) :
    ∃ l₁ l₂ e, l = l₁ ++ l₂ ∧ Steps tm fuel main crash r b l₁ e ∧ e.t.Quiet ∧ got <+: e.t.s.patches ∧ (ok = true → got = e.t.s.patches) := by
  have := read_steps hb (Crew.held_steps (Tools.held_start hm) h0.tools) h
  simpa only [Read, hc] using this

/-- **C223.**  So they are those which the requests that had been served until then amount to, and those in force: each call
went to the replacement by the first of the shown live patches that has one. -/
theorem C223_in_force_partial {m₀ : Mem} {F slot : Nat → Prop} (htl : tm.length = 44) (hI : Image m₀ F slot) {fuel main r : Nat} {alive : Nat → Prop} (hm : alive main)
    {l₀ l : List (Nat × Request × Nat)} {b c : Conf}
    (h0 : Steps tm fuel main false r ⟨Tools.start (State.init m₀) alive, .idle⟩ l₀ b) (hb : b.v = .idle)
    (h : Steps tm fuel main false r b l c) (hfit : ∀ x ∈ l₀ ++ l, Fits F slot x.2.1) {got : List Applied} (hc : c.v = .shown got true) :
    ∃ l₁ l₂ e, l = l₁ ++ l₂ ∧ Steps tm fuel main false r b l₁ e ∧ (healthy e.t.s.err →
      got.map asPatch = trackAll [] ((l₀ ++ l₁).map (·.2.1)) ((l₀ ++ l₁).map (·.2.2)) ∧
      ∀ f, F f → callDest tm (entryOff m₀ f) e.t.s.mem f = some ((replacement (got.map asPatch) f).getD (body m₀ f))) := by
  obtain ⟨l₁, l₂, e, h1, h2, h3, _, h5⟩ := C223_one_moment hm h0 hb h hc
  refine ⟨l₁, l₂, e, h1, h2, fun hh => ?_⟩
  have hs := (h0.trans h2).tools
  have hone := Crew.C218_one_by_one hm hs h3
  have hin : ∀ r ∈ (l₀ ++ l₁).map (·.2.1), Fits F slot r := by
    intro q hq
    obtain ⟨x, hx, rfl⟩ := List.mem_map.1 hq
    refine hfit x ?_
    rw [h1, ← List.append_assoc]
    exact List.mem_append_left _ hx
  have hg := (Power.serveAll_inv htl hI _ hin _ _ _ _ (Power.init_inv hI) hone).good hh
  have hsh : got.map asPatch = trackAll [] ((l₀ ++ l₁).map (·.2.1)) ((l₀ ++ l₁).map (·.2.2)) := by
    rw [h5 rfl]; exact hg.shown
  refine ⟨hsh, fun f hf => ?_⟩
  rw [hsh]
  exact hg.calls htl hI.range f hf

/-- Nobody is in the way of the listing. -/
theorem listing {fuel main r : Nat} {crash : Bool} {b : Conf} {c : Tools.Conf} {l} (h : Steps tm fuel main crash r b l ⟨c, .idle⟩)
    (hm : c.alive main) (hp : c.phase r = .out) (hf : c.tracer main = none) :
    ∃ d, Steps tm fuel main crash r b l ⟨d, .shown c.s.patches true⟩ ∧ d.s = c.s ∧ d.phase r = .scan ∧
      ∀ i, i ≠ r → d.phase i = c.phase i := by
  have h1 := Crew.Steps.one (Crew.Step.begin (tm := tm) (fuel := fuel) (main := main) (crash := crash) c r hp)
  have h2 := Crew.Steps.trans h1 (Crew.Steps.one (Crew.Step.attach _ r main (Tools.upd_self ..) hm hf))
  have h3 := h.trans (lift (r := r) .idle (by simp) h2)
  have h4 := Steps.tail h3 (Step.begin (r := r) (Tools.upd_self ..) (Tools.upd_self ..))
  have h5 := h4.trans (reads _ [] List.nil_prefix)
  simp only [Option.toList_none, List.append_nil] at h5
  refine ⟨_, h5, rfl, Tools.upd_self .., fun i hi => ?_⟩
  show Tools.upd c.phase r .scan i = c.phase i
  rw [Tools.upd_ne _ _ hi]

/-- **C223.**  A listing can be made whenever the main thread is free. -/
theorem C223_can_be_made {fuel main r : Nat} {crash : Bool} {c : Tools.Conf} (hm : c.alive main) (hp : c.phase r = .out)
    (hf : c.tracer main = none) : ∃ d, Steps tm fuel main crash r ⟨c, .idle⟩ [] ⟨d, .shown c.s.patches true⟩ := by
  obtain ⟨d, h, _⟩ := listing (tm := tm) (fuel := fuel) (crash := crash) .refl hm hp hf
  exact ⟨d, h⟩

/-- **C223 is false** as to being in force if tools may be killed: whatever libpulp has put into its list when a tool is killed is
shown, although none of it has been written yet. -/
theorem C223_killed {fuel main i r : Nat} (hir : i ≠ r) {s s' : State} {a : Nat} {alive : Nat → Prop} (hm : alive main) (ts : List Nat)
    (hts : ∀ t, alive t → t ∈ ts) (q : Request) (hq : Tools.queues q = true) (hr : Run.raw tm fuel s q = some (s', a)) :
    ∃ c, Steps tm fuel main true r ⟨Tools.start s alive, .idle⟩ [] c ∧ c.t.Quiet ∧ c.t.s = s' ∧ c.v = .shown s'.patches true := by
  have h1 := Crew.Steps.one (Crew.Step.begin (tm := tm) (fuel := fuel) (main := main) (crash := true) (Tools.start s alive) i rfl)
  obtain ⟨tr, h2, h3, h4⟩ := Crew.attach_steps (tm := tm) (fuel := fuel) (main := main) (crash := true) i ts
    { Tools.start s alive with phase := Tools.upd (Tools.start s alive).phase i .scan } (Tools.upd_self ..) (fun t _ => .inl rfl)
  have h5 := Crew.Steps.trans (Crew.Steps.trans h1 h2) (Crew.Steps.one (Crew.Step.enter _ i q (Tools.upd_self ..)
    (fun t ht => h4 t ht (.inl (hts t ht)))))
  have h6 := Crew.Steps.trans h5 (Crew.Steps.one (Crew.Step.work _ i (.call q) (.fetch q a) s' (Tools.upd_self ..) (by
    show Crew.secStep tm fuel s (.call q) = _
    simp only [Crew.secStep, hr, hq, if_true])))
  have h7 := Crew.Steps.trans h6 (Crew.Steps.one (Crew.Step.die _ i (.inl rfl)))
  obtain ⟨d, h8, h9, h10, h11⟩ := listing (r := r) (lift (r := r) .idle (by simp) h7) hm (by
    simp only [Tools.upd_upd]
    rw [Tools.upd_ne _ _ (fun e => hir e.symm)]
    rfl) (by simp only; rw [if_pos (h4 main hm (.inl (hts main hm)))])
  refine ⟨_, by simpa using h8, ?_, h9, rfl⟩
  rintro j ⟨k, hk⟩
  by_cases hj : j = r
  · subst hj; simp only at hk; rw [h10] at hk; cases hk
  · simp only at hk
    rw [h11 j hj] at hk
    simp only [Tools.upd, Tools.start] at hk
    repeat' split at hk
    all_goals cases hk

/-! ### Cases -/

open Verif.Runtime (demoF demoSlot demoWorld demoPatch libA)

/-- A live patch for one function. -/
def demoReq : Request := .apply demoWorld (.ok (demoPatch 1 libA [0x1000] [] []))

/-- Tool 7 applies a live patch in a process with two threads, then 5 lists: the patch is shown. -/
theorem demo_listed : ∃ (c : Conf) (got : List Applied),
    Steps demoT 10 1 false 5 ⟨Tools.start (State.init demoMem) (fun t => t = 1 ∨ t = 2), .idle⟩ [(7, demoReq, 0)] c ∧
    c.v = .shown got true ∧ got.map (·.id) = [[1]] := by
  have e : ((serve demoT 10 (State.init demoMem) demoReq).map fun p => (p.2, p.1.patches.map (·.id))) = some (0, [[1]]) := by decide +kernel
  cases h1 : serve demoT 10 (State.init demoMem) demoReq with
  | none => rw [h1] at e; cases e
  | some p =>
    obtain ⟨s1, a1⟩ := p
    rw [h1] at e
    simp only [Option.map_some, Option.some.injEq, Prod.mk.injEq] at e
    obtain ⟨rfl, e2⟩ := e
    obtain ⟨d, h2, h3, h4, h5, h6⟩ := Crew.C218_gets_through (main := 1) (crash := false) (i := 7)
      (c := Tools.start (State.init demoMem) (fun t => t = 1 ∨ t = 2)) rfl (fun _ _ => rfl) [1, 2] (by rintro t (rfl | rfl) <;> simp)
      demoReq s1 0 h1
    obtain ⟨c, h7, _⟩ := listing (r := 5) (lift (r := 5) .idle (by simp) h2) (by rw [h4]; exact .inl rfl) (by rw [h6]; rfl)
      (h5 1 (by rw [h4]; exact .inl rfl))
    exact ⟨_, _, h7, rfl, by rw [h3]; exact e2⟩

/-- C223: it was in force at a moment. -/
example : ∃ (got : List Applied) (e : Conf), got.map (·.id) = [[1]] ∧ (healthy e.t.s.err →
    ∀ f, demoF f → callDest demoT (entryOff demoMem f) e.t.s.mem f = some ((replacement (got.map asPatch) f).getD (body demoMem f))) := by
  obtain ⟨c, got, h, hc, hg⟩ := demo_listed
  obtain ⟨_, _, e, _, _, h1⟩ := C223_in_force_partial demo_t demo_image (.inl rfl) .refl rfl h (by
    intro x hx
    simp only [List.nil_append, List.mem_singleton] at hx
    subst hx
    exact demo_fits _ _ _ _ _ (by simp [demoF]) (by simp)) hc
  exact ⟨got, e, hg, fun hh => (h1 hh).2⟩

example : ∃ (c : Conf) (l₁ l₂ : _) (e : Conf), [(7, demoReq, 0)] = l₁ ++ l₂ ∧ e.t.Quiet ∧ c.v = .shown e.t.s.patches true := by
  obtain ⟨c, got, h, hc, hg⟩ := demo_listed
  obtain ⟨l₁, l₂, e, h1, _, h2, _, h3⟩ := C223_one_moment (.inl rfl) .refl rfl h hc
  exact ⟨c, l₁, l₂, e, h1, h2, by rw [hc, h3 rfl]⟩

example : ∃ d, Steps demoT 10 1 false 5 ⟨Tools.start (State.init demoMem) (fun t => t = 1), .idle⟩ [] ⟨d, .shown [] true⟩ :=
  C223_can_be_made rfl rfl rfl

/-- C223: a live patch is shown that is not in force, as the tool was killed. -/
example : ∃ (c : Conf) (got : List Applied), Steps demoT 10 1 true 5 ⟨Tools.start (State.init demoMem) (fun t => t = 1), .idle⟩ [] c ∧ c.t.Quiet ∧
    c.v = .shown got true ∧ replacement (got.map asPatch) 0x1000 = some 0x700001 ∧ callDest demoT 0 c.t.s.mem 0x1000 = some (body demoMem 0x1000) := by
  have e : ((Run.raw demoT 10 (State.init demoMem) demoReq).map fun p =>
      (replacement (p.1.patches.map asPatch) 0x1000, callDest demoT 0 p.1.mem 0x1000)) = some (some 0x700001, some (body demoMem 0x1000)) := by
    decide +kernel
  cases hr : Run.raw demoT 10 (State.init demoMem) demoReq with
  | none => rw [hr] at e; cases e
  | some p =>
    obtain ⟨s1, a⟩ := p
    rw [hr] at e
    simp only [Option.map_some, Option.some.injEq, Prod.mk.injEq] at e
    obtain ⟨c, h1, h2, h3, h4⟩ := C223_killed (main := 1) (i := 7) (r := 5) (alive := fun t => t = 1) (by decide) rfl [1] (by rintro t rfl; simp) demoReq rfl hr
    exact ⟨c, _, h1, h2, h4, e.1, by rw [h3]; exact e.2⟩

end Verif.Power.Glance
