import Verif.PowerTools.Spec
import Verif.Tools.Lemmas

/-! Supporting lemmas for `Verif.PowerTools.Props`. -/

namespace Verif.Power.Crew

open Verif.Runtime (State Request settle)
open Verif.InsnQueue (Effect applyEffects)
open Verif.Tools (Sec Phase Conf upd start queues upd_self upd_ne upd_crit upd_idle upd_upd upd_same Held held_start Conf.Inside
  Conf.Quiet Conf.Running)

variable {tm : List UInt8}

theorem held_step {fuel main crash c o d} (hi : Held main c) (h : Step tm fuel main crash c o d) : Held main d := by
  cases h with
  | spawn u t hu hr ht hn =>
    refine ⟨.inr hi.main, fun i k hk v hv => ?_⟩
    have := hi.all i k hk u hu
    rw [hr] at this; cases this
  | exit u hu hr hm =>
    refine ⟨⟨fun e => hm e.symm, hi.main⟩, fun i k hk v hv => hi.all i k hk v hv.2⟩
  | begin i hp =>
    refine ⟨hi.main, fun j k hk v hv => ?_⟩
    rcases upd_crit hk with ⟨_, e⟩ | ⟨_, e⟩
    · cases e
    · exact hi.all j k e v hv
  | attach i t hp ha hn =>
    refine ⟨hi.main, fun j k hk v hv => ?_⟩
    have := hi.all j k hk t ha
    rw [hn] at this; cases this
  | fail i hp =>
    refine ⟨hi.main, fun j k hk v hv => ?_⟩
    rcases upd_crit hk with ⟨_, e⟩ | ⟨_, e⟩
    · cases e
    · exact hi.all j k e v hv
  | enter i r hp hall =>
    refine ⟨hi.main, fun j k hk v hv => ?_⟩
    rcases upd_crit hk with ⟨ej, _⟩ | ⟨_, e⟩
    · rw [ej]; exact hall v hv
    · exact hi.all j k e v hv
  | work i k k' s' hp hs =>
    refine ⟨hi.main, fun j l hk v hv => ?_⟩
    rcases upd_crit hk with ⟨ej, _⟩ | ⟨_, e⟩
    · rw [ej]; exact hi.all i k hp v hv
    · exact hi.all j l e v hv
  | leave i r a hp =>
    refine ⟨hi.main, fun j k hk v hv => ?_⟩
    rcases upd_crit hk with ⟨_, e⟩ | ⟨_, e⟩
    · cases e
    · exact hi.all j k e v hv
  | detach i t hp ht =>
    refine ⟨hi.main, fun j k hk v hv => ?_⟩
    show upd c.tracer t none v = some j
    have hk : c.phase j = .crit k := hk
    have hv' := hi.all j k hk v hv
    rw [upd_ne _ _ (fun e => ?_)]
    · exact hv'
    · rw [e, ht] at hv'
      cases hv'
      rw [hp] at hk; cases hk
  | home i hp =>
    refine ⟨hi.main, fun j k hk v hv => ?_⟩
    rcases upd_crit hk with ⟨_, e⟩ | ⟨_, e⟩
    · cases e
    · exact hi.all j k e v hv
  | die i hc =>
    refine ⟨hi.main, fun j k hk v hv => ?_⟩
    rcases upd_crit hk with ⟨_, e⟩ | ⟨hn, e⟩
    · cases e
    · have := hi.all j k e v hv
      show (if c.tracer v = some i then none else c.tracer v) = some j
      rw [this, if_neg (fun e => hn (Option.some.inj e))]

theorem held_steps {fuel main crash c l d} (hi : Held main c) (h : Steps tm fuel main crash c l d) : Held main d := by
  induction h with
  | refl => exact hi
  | tail _ h ih => exact held_step ih h

/-- How far a tool inside has come, since the state `s` in which it entered. -/
def Mid (tm : List UInt8) (fuel : Nat) (s : State) : Sec → State → Prop
  | .call _, t => t = s
  | .fetch r a, t => queues r = true ∧ Run.raw tm fuel s r = some (t, a)
  | .change r a es, t => serve tm fuel s r =
      some ({ t with mem := (applyEffects ⟨t.mem, t.q⟩ es).mem, q := (applyEffects ⟨t.mem, t.q⟩ es).q }, a)
  | .finished r a, t => serve tm fuel s r = some (t, a)
  | .stuck, _ => True

theorem serve_raw {fuel s r t a} (hq : queues r = true) (h : Run.raw tm fuel s r = some (t, a)) :
    serve tm fuel s r = some (settle t, a) := by
  cases r with
  | apply w m =>
    simp only [Run.raw, Option.some.injEq] at h
    simp [serve, h]
  | revertAll w lib =>
    simp only [Run.raw] at h
    simp [serve, h]
  | check _ => cases hq
  | toggle => cases hq

theorem serve_raw' {fuel s r t a} (hq : queues r = false) (h : Run.raw tm fuel s r = some (t, a)) :
    serve tm fuel s r = some (t, a) := by
  cases r with
  | apply w m => cases hq
  | revertAll w lib => cases hq
  | check _ => simpa [serve, Run.raw] using h
  | toggle => simpa [serve, Run.raw] using h

theorem mid_step {fuel s k t k' t'} (hm : Mid tm fuel s k t) (h : secStep tm fuel t k = some (k', t')) : Mid tm fuel s k' t' := by
  cases k with
  | call r =>
    have hm : t = s := hm
    subst hm
    simp only [secStep] at h
    cases hr : Run.raw tm fuel t r with
    | none =>
      simp only [hr, Option.some.injEq, Prod.mk.injEq] at h
      obtain ⟨rfl, rfl⟩ := h
      trivial
    | some x =>
      obtain ⟨u, a⟩ := x
      simp only [hr, Option.some.injEq, Prod.mk.injEq] at h
      obtain ⟨rfl, rfl⟩ := h
      cases hq : queues r with
      | true => exact ⟨hq, hr⟩
      | false => exact serve_raw' hq hr
  | fetch r a =>
    simp only [secStep, Option.some.injEq, Prod.mk.injEq] at h
    obtain ⟨rfl, rfl⟩ := h
    obtain ⟨hq, hr⟩ := hm
    exact serve_raw hq hr
  | change r a es =>
    cases es with
    | nil =>
      simp only [secStep, Option.some.injEq, Prod.mk.injEq] at h
      obtain ⟨rfl, rfl⟩ := h
      exact hm
    | cons e es =>
      simp only [secStep, Option.some.injEq, Prod.mk.injEq] at h
      obtain ⟨rfl, rfl⟩ := h
      exact hm
  | finished r a => simp [secStep] at h
  | stuck => simp [secStep] at h

theorem serveAll_snoc {fuel} (rs : List Request) : ∀ {s t u as r a}, serveAll tm fuel s rs = some (t, as) →
    serve tm fuel t r = some (u, a) → serveAll tm fuel s (rs ++ [r]) = some (u, as ++ [a]) := by
  induction rs with
  | nil =>
    intro s t u as r a h hs
    simp only [serveAll, Option.some.injEq, Prod.mk.injEq] at h
    obtain ⟨rfl, rfl⟩ := h
    simp [serveAll, hs]
  | cons q rs ih =>
    intro s t u as r a h hs
    simp only [serveAll] at h
    simp only [List.cons_append, serveAll]
    cases hq : serve tm fuel s q with
    | none => simp [hq] at h
    | some x =>
      obtain ⟨s1, a1⟩ := x
      simp only [hq] at h
      cases hr : serveAll tm fuel s1 rs with
      | none => simp [hr] at h
      | some y =>
        obtain ⟨s2, as2⟩ := y
        simp only [hr, Option.map_some, Option.some.injEq, Prod.mk.injEq] at h
        obtain ⟨rfl, rfl⟩ := h
        simp [ih hr hs]

/-- The state is that of the finished tools, and of the one inside if there is one. -/
def Serial (tm : List UInt8) (fuel : Nat) (s₀ : State) (log : List (Nat × Request × Nat)) (c : Conf) : Prop :=
  ∃ s, OneByOne tm fuel s₀ log s ∧ (c.Quiet → c.s = s) ∧ ∀ i k, c.phase i = .crit k → Mid tm fuel s k c.s

/-- A step that neither enters, works nor leaves. -/
theorem Serial.idle {fuel s₀ log c d} (hs : Serial tm fuel s₀ log c) (e : d.s = c.s)
    (hp : ∀ i k, d.phase i = .crit k ↔ c.phase i = .crit k) : Serial tm fuel s₀ log d := by
  obtain ⟨s, h1, h2, h3⟩ := hs
  refine ⟨s, h1, fun hq => ?_, fun i k hk => ?_⟩
  · rw [e]; exact h2 (fun i ⟨k, hk⟩ => hq i ⟨k, (hp i k).2 hk⟩)
  · rw [e]; exact h3 i k ((hp i k).1 hk)

theorem serial_step {fuel main s₀ log c o d} (hi : Held main c) (hs : Serial tm fuel s₀ log c)
    (h : Step tm fuel main false c o d) : Serial tm fuel s₀ (log ++ o.toList) d := by
  cases h with
  | spawn u t hu hr ht hn => rw [Option.toList_none, List.append_nil]; exact hs.idle rfl (fun _ _ => Iff.rfl)
  | exit u hu hr hm => rw [Option.toList_none, List.append_nil]; exact hs.idle rfl (fun _ _ => Iff.rfl)
  | begin i hp =>
    rw [Option.toList_none, List.append_nil]
    exact hs.idle rfl (upd_idle (fun k => by rw [hp]; nofun) nofun)
  | attach i t hp ha hn => rw [Option.toList_none, List.append_nil]; exact hs.idle rfl (fun _ _ => Iff.rfl)
  | fail i hp =>
    rw [Option.toList_none, List.append_nil]
    exact hs.idle rfl (upd_idle (fun k => by rw [hp]; nofun) nofun)
  | enter i r hp hall =>
    rw [Option.toList_none, List.append_nil]
    obtain ⟨s, h1, h2, h3⟩ := hs
    have hq : c.Quiet := fun j ⟨k, hk⟩ => by
      have a := hi.all j k hk main hi.main
      rw [hall main hi.main] at a
      cases a
      rw [hp] at hk; cases hk
    refine ⟨s, h1, fun hn => absurd ⟨_, upd_self ..⟩ (hn i), fun j k hk => ?_⟩
    rcases upd_crit hk with ⟨_, e⟩ | ⟨_, e⟩
    · cases e; exact h2 hq
    · exact absurd ⟨k, e⟩ (hq j)
  | work i k k' s' hp hk =>
    rw [Option.toList_none, List.append_nil]
    obtain ⟨s, h1, h2, h3⟩ := hs
    refine ⟨s, h1, fun hn => absurd ⟨_, upd_self ..⟩ (hn i), fun j l hl => ?_⟩
    rcases upd_crit hl with ⟨_, e⟩ | ⟨hne, e⟩
    · cases e; exact mid_step (h3 i k hp) hk
    · exact absurd (hi.one e hp) hne
  | leave i r a hp =>
    obtain ⟨s, h1, h2, h3⟩ := hs
    have hm : serve tm fuel s r = some (c.s, a) := h3 i _ hp
    refine ⟨c.s, ?_, fun _ => rfl, fun j l hl => ?_⟩
    · simp only [OneByOne, Option.toList_some, List.map_append, List.map_cons, List.map_nil]
      exact serveAll_snoc _ h1 hm
    · rcases upd_crit hl with ⟨_, e⟩ | ⟨hne, e⟩
      · cases e
      · exact absurd (hi.one e hp) hne
  | detach i t hp ht => rw [Option.toList_none, List.append_nil]; exact hs.idle rfl (fun _ _ => Iff.rfl)
  | home i hp =>
    rw [Option.toList_none, List.append_nil]
    exact hs.idle rfl (upd_idle (fun k => by rw [hp]; nofun) nofun)
  | die i hc =>
    rw [Option.toList_none, List.append_nil]
    rcases hc with hc | hc
    · cases hc
    · exact hs.idle rfl (upd_idle hc nofun)

theorem serial_steps {fuel main s alive log c} (hm : alive main) (h : Steps tm fuel main false (start s alive) log c) :
    Serial tm fuel s log c := by
  induction h with
  | refl =>
    refine ⟨s, rfl, fun _ => rfl, fun i k hk => ?_⟩
    simp [start] at hk
  | tail h1 h2 ih => exact serial_step (held_steps (held_start hm) h1) ih h2

theorem Steps.trans {fuel main crash c d e l l'} (h : Steps tm fuel main crash c l d) (h' : Steps tm fuel main crash d l' e) :
    Steps tm fuel main crash c (l ++ l') e := by
  induction h' with
  | refl => rw [List.append_nil]; exact h
  | tail _ h2 ih => rw [← List.append_assoc]; exact .tail ih h2

theorem Steps.one {fuel main crash c d o} (h : Step tm fuel main crash c o d) : Steps tm fuel main crash c o.toList d := by
  simpa using Steps.tail .refl h

/-- Working off the changes. -/
theorem change_steps {fuel main crash} (i : Nat) (r : Request) (a : Nat) (es : List Effect) : ∀ c : Conf,
    c.phase i = .crit (.change r a es) → Steps tm fuel main crash c []
      { c with s := { c.s with mem := (applyEffects ⟨c.s.mem, c.s.q⟩ es).mem, q := (applyEffects ⟨c.s.mem, c.s.q⟩ es).q },
               phase := upd c.phase i (.crit (.finished r a)) } := by
  induction es with
  | nil =>
    intro c h
    exact Steps.one (.work c i _ _ _ h rfl)
  | cons e es ih =>
    intro c h
    have h1 := Steps.one (Step.work (tm := tm) (fuel := fuel) (main := main) (crash := crash) c i _ _ _ h rfl)
    have h2 := Steps.trans h1 (ih _ (upd_self ..))
    simp only [upd_upd] at h2
    exact h2

/-- A tool inside can get through. -/
theorem section_steps {fuel main crash} (i : Nat) (r : Request) (c : Conf) (h : c.phase i = .crit (.call r)) (s' : State) (a : Nat)
    (hs : serve tm fuel c.s r = some (s', a)) :
    Steps tm fuel main crash c [(i, r, a)] { c with s := s', phase := upd c.phase i .release } := by
  have hraw : ∃ t, Run.raw tm fuel c.s r = some (t, a) := by
    cases r with
    | apply w m =>
      simp only [serve, Option.some.injEq, Prod.mk.injEq] at hs
      exact ⟨(Power.applyPatch tm w m c.s).1, by simp [Run.raw, ← hs.2]⟩
    | revertAll w lib =>
      simp only [serve, Option.map_eq_some_iff] at hs
      obtain ⟨⟨t, b⟩, h1, h2⟩ := hs
      simp only [Prod.mk.injEq] at h2
      exact ⟨t, by rw [← h2.2]; exact h1⟩
    | check _ => exact ⟨s', by simpa [serve, Run.raw] using hs⟩
    | toggle => exact ⟨s', by simpa [serve, Run.raw] using hs⟩
  obtain ⟨t, hr⟩ := hraw
  have h1 := Steps.one (Step.work (tm := tm) (fuel := fuel) (main := main) (crash := crash) c i _
    (if queues r then .fetch r a else .finished r a) t h (by simp [secStep, hr]))
  have fin : Steps tm fuel main crash c [] { c with s := s', phase := upd c.phase i (.crit (.finished r a)) } := by
    cases hq : queues r with
    | false =>
      rw [hq] at h1
      rw [serve_raw' hq hr] at hs
      simp only [Option.some.injEq, Prod.mk.injEq, and_true] at hs
      subst hs
      exact h1
    | true =>
      rw [hq] at h1
      rw [serve_raw hq hr] at hs
      simp only [Option.some.injEq, Prod.mk.injEq, and_true] at hs
      subst hs
      have h2 := Steps.trans h1 (Steps.one (Step.work _ i _ _ _ (upd_self ..) rfl))
      have h3 := Steps.trans h2 (change_steps i r a _ _ (upd_self ..))
      simp only [upd_upd] at h3
      exact h3
  have h4 := Steps.trans fin (Steps.one (Step.leave _ i r a (upd_self ..)))
  simp only [upd_upd] at h4
  exact h4

/-- A tool can attach threads that nobody else has. -/
theorem attach_steps {fuel main crash} (i : Nat) (ts : List Nat) : ∀ c : Conf, c.phase i = .scan →
    (∀ t, c.alive t → c.tracer t = none ∨ c.tracer t = some i) →
    ∃ tr, Steps tm fuel main crash c [] { c with tracer := tr } ∧ (∀ t, c.alive t → tr t = none ∨ tr t = some i) ∧
      ∀ t, c.alive t → t ∈ ts ∨ c.tracer t = some i → tr t = some i := by
  induction ts with
  | nil => intro c h hn; exact ⟨c.tracer, .refl, hn, fun t _ ht => ht.resolve_left (by simp)⟩
  | cons u ts ih =>
    intro c h hn
    by_cases hu : c.alive u ∧ c.tracer u = none
    · have h1 := Steps.one (Step.attach (tm := tm) (fuel := fuel) (main := main) (crash := crash) c i u h hu.1 hu.2)
      obtain ⟨tr, h2, h3, h4⟩ := ih { c with tracer := upd c.tracer u (some i) } h (fun t ht => by
        by_cases e : t = u
        · subst e; exact .inr (upd_self ..)
        · show upd c.tracer u (some i) t = none ∨ upd c.tracer u (some i) t = some i
          rw [upd_ne _ _ e]; exact hn t ht)
      refine ⟨tr, Steps.trans h1 h2, h3, fun t ht hm => h4 t ht ?_⟩
      by_cases e : t = u
      · subst e; exact .inr (upd_self ..)
      · rcases hm with hm | hm
        · exact .inl ((List.mem_cons.1 hm).resolve_left e)
        · right; show upd c.tracer u (some i) t = some i
          rw [upd_ne _ _ e]; exact hm
    · obtain ⟨tr, h2, h3, h4⟩ := ih c h hn
      refine ⟨tr, h2, h3, fun t ht hm => h4 t ht ?_⟩
      rcases hm with hm | hm
      · rcases List.mem_cons.1 hm with rfl | hm
        · exact .inr ((hn t ht).resolve_left (fun e => hu ⟨ht, e⟩))
        · exact .inl hm
      · exact .inr hm

end Verif.Power.Crew
