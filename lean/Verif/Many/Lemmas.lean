import Verif.Many.Spec
import Verif.Session.Lemmas
import Verif.Flow.Accept

/-! Supporting lemmas for `Verif.Many.Props`. -/

namespace Verif.Many

open Verif.Runtime
open Verif.Runtime.Spec
open Verif.InsnQueue (Req Holds Event)
open Verif.Session
open Verif.Session.Spec
open Verif.Many.Spec

/-! ### reverting -/

/-- What libpulp answers when it is to revert all patches of a library. -/
theorem revertAll_cases {m₀ F slot s ps fuel w lib s' a} (hI : Image m₀ F slot) (hinv : Inv m₀ F slot s ps) (hh : healthy s.err)
    (h : raw fuel s (.revertAll w lib) = some (s', a)) :
    a = 0 ∨ (a ≠ 0 ∧ s' = s ∧ ((a = ENOTARGETLIB ∨ a = ENOPATCH) → ∀ p ∈ ps, p.lib ≠ libKey lib)) := by
  simp only [raw] at h
  unfold revertAll at h
  rw [gate_clean hinv.clean] at h
  by_cases he : s.err ≠ ENONE
  · rw [if_pos he] at h
    simp only [Option.some.injEq, Prod.mk.injEq] at h
    obtain ⟨rfl, rfl⟩ := h
    refine Or.inr ⟨he, rfl, fun hc => ?_⟩
    rcases hh with hh | hh
    · exact absurd hh he
    · rw [hh] at hc
      rcases hc with hc | hc <;> exact absurd hc (by decide)
  rw [if_neg he] at h
  by_cases hb : w.busy = true
  · rw [if_pos hb] at h
    simp only [Option.some.injEq, Prod.mk.injEq] at h
    obtain ⟨rfl, rfl⟩ := h
    exact Or.inr ⟨by decide, rfl, fun hc => by rcases hc with hc | hc <;> exact absurd hc (by decide)⟩
  rw [if_neg hb] at h
  simp only at h
  by_cases hl : pathLen ≤ basenameOff lib
  · rw [if_pos hl] at h
    simp only [Option.some.injEq, Prod.mk.injEq] at h
    obtain ⟨rfl, rfl⟩ := h
    exact Or.inr ⟨by decide, rfl, fun hc => by rcases hc with hc | hc <;> exact absurd hc (by decide)⟩
  rw [if_neg hl] at h
  simp only [Option.map_eq_some_iff] at h
  obtain ⟨⟨s1, e⟩, h1, h2⟩ := h
  have hg := hinv.good hh
  obtain ⟨ws, -, -, -, -, a5, a6⟩ := revertAllLoop_ok hI fuel s.patches ENOTARGETLIB s s.mem _ hg
    (hg.ready hI.range) hg.libs hg.ids s1 e h1
  by_cases hx : ∃ p ∈ s.patches, p.lib = libKey lib
  · have he0 := a5 hx
    subst he0
    simp only at h2
    rw [if_neg (by rintro ⟨h, -⟩; simp [ENOTARGETLIB] at h)] at h2
    exact Or.inl (Prod.mk.inj h2).2.symm
  · obtain ⟨rfl, rfl⟩ := a6 (fun p hp hc => hx ⟨p, hp, hc⟩)
    refine Or.inr ?_
    have hno : ∀ p ∈ ps, p.lib ≠ libKey lib := by
      intro p hp hc
      rw [← hg.shown] at hp
      obtain ⟨q, hq, rfl⟩ := List.mem_map.mp hp
      exact hx ⟨q, hq, hc⟩
    simp only at h2
    split at h2
    · obtain ⟨rfl, rfl⟩ := Prod.mk.inj h2
      exact ⟨by decide, rfl, fun _ => hno⟩
    · obtain ⟨rfl, rfl⟩ := Prod.mk.inj h2
      exact ⟨by decide, rfl, fun _ => hno⟩

/-- It says that there is nothing to revert only when that is so. -/
theorem revert_nothing {m₀ F slot s ps fuel w lib s' a} (hI : Image m₀ F slot) (hk : K m₀ F slot s ps) (hh : healthy s.err)
    (h : raw fuel s (.revertAll w lib) = some (s', a)) (ha : a = ENOTARGETLIB ∨ a = ENOPATCH) : ∀ p ∈ ps, p.lib ≠ libKey lib := by
  by_cases hi : s.q.num = 0 ∧ s.q.size = 0
  · rcases revertAll_cases hI (hk.inv ⟨hi.1, hi.2, hk.ver⟩) hh h with h0 | ⟨-, -, h2⟩
    · rw [h0] at ha
      rcases ha with ha | ha <;> exact absurd ha (by decide)
    · exact h2 ha
  · exfalso
    simp only [raw] at h
    unfold revertAll at h
    rw [gate_full w hi] at h
    by_cases he : s.err ≠ ENONE
    · rw [if_pos he] at h
      simp only [Option.some.injEq, Prod.mk.injEq] at h
      obtain ⟨rfl, rfl⟩ := h
      rcases hh with hh | hh
      · exact he hh
      · rw [hh] at ha
        rcases ha with ha | ha <;> exact absurd ha (by decide)
    · rw [if_neg he] at h
      simp only [Option.some.injEq, Prod.mk.injEq] at h
      obtain ⟨rfl, rfl⟩ := h
      rcases ha with ha | ha <;> exact absurd ha (by decide)

/-- The codes of executing the queue. -/
theorem interp_code {f : QFault} {s s' : State} {e : Nat} (hf : QFault.Ok f) (h : interp f s = some (s', e)) :
    e ≠ ENOTARGETLIB ∧ e ≠ ENOPATCH := by
  unfold interp at h
  split at h
  · simp only [Option.some.injEq, Prod.mk.injEq] at h
    rw [← h.2]
    decide
  split at h
  · simp only [Option.some.injEq, Prod.mk.injEq] at h
    rw [← h.2]
    decide
  simp only at h
  split at h
  · simp only [Option.some.injEq, Prod.mk.injEq] at h
    rw [← h.2]
    unfold InsnQueue.fetch
    split
    · dsimp only; decide
    · split
      · dsimp only; decide
      · split <;> (dsimp only; decide)
  split at h
  · rename_i hb
    obtain ⟨b, hb'⟩ := Option.isSome_iff_exists.mp hb.2
    have := (hf.2 b hb').2
    simp only [Option.some.injEq, Prod.mk.injEq] at h
    rw [← h.2, hb']
    simp only [Option.getD_some]
    constructor
    · intro hc; rw [hc] at this; exact absurd this (by decide)
    · intro hc; rw [hc] at this; exact absurd this (by decide)
  split at h
  · exact absurd h (by simp)
  · simp only [Option.some.injEq, Prod.mk.injEq] at h
    rw [← h.2]
    decide
  · split at h
    all_goals
      simp only [Option.some.injEq, Prod.mk.injEq] at h
      rw [← h.2]
      decide

theorem filter_self {p : Patch → Bool} {ps : List Patch} (h : ∀ q ∈ ps, p q = true) : ps.filter p = ps := by
  rw [List.filter_eq_self]; exact h

/-- The tool reverting: at most one request, and what its result says. -/
structure Reverted (x : Session) (t : Try) (lib : Str) (l : Log) (s' : State) (l' : Log) (res : Int) : Prop where
  log : l' = [] ∨ ∃ a, l' = [(.revertAll t.world (revertLib x lib), a)]
  zero : res = 0 → l' = [(.revertAll t.world (revertLib x lib), 0)]
  nothing : healthy s'.err → (res = (ENOTARGETLIB : Int) ∨ res = (ENOPATCH : Int)) →
    ∀ p ∈ notes [] l, p.lib ≠ libKey (revertLib x lib)

theorem revertTool_result {m₀ F slot s l fuel x t lib s' l' res} (hI : Image m₀ F slot) (ht : Try.Ok m₀ F slot t) (ha : Try.Alone t)
    (hf : t.queueRevert.found = true)
    (hw : W m₀ F slot s l) (h : revertTool fuel x t lib s = some (s', l', res)) :
    Reverted x t lib l s' l' res ∧ Later s s' := by
  have hres := revertTool_W hI ht hw h
  have hz : res = 0 → l' = [(.revertAll t.world (revertLib x lib), 0)] := fun h0 => (hres.ok h0 hf).1
  unfold revertTool at h
  split at h
  · simp only [Option.some.injEq, Prod.mk.injEq] at h
    obtain ⟨rfl, rfl, rfl⟩ := h
    exact ⟨⟨Or.inl rfl, hz, fun _ hc => by rcases hc with hc | hc <;> exact absurd hc (by decide)⟩, fun h => h⟩
  cases hr : runRoutine fuel s (.revertAll t.world (revertLib x lib)) t.runRevert with
  | none => simp [hr] at h
  | some p =>
    obtain ⟨s1, l1, e, a⟩ := p
    have hfit : Fits m₀ F slot (.revertAll t.world (revertLib x lib)) := trivial
    obtain ⟨hw1, hl1⟩ := runRoutine_W hI hfit hw ht.runRevert hr
    have hrun : (l1 = [] ∨ ∃ a, l1 = [(.revertAll t.world (revertLib x lib), a)]) ∧ Later s s1 ∧
        (∀ b, e ≠ 0 → t.runRevert = .failed e b ∨ t.runRevert = .failed e (!b)) := by
      cases hrr : t.runRevert with
      | done =>
        rw [hrr] at hr
        simp only [runRoutine, Option.map_eq_some_iff] at hr
        obtain ⟨⟨s2, a2⟩, h1, h2⟩ := hr
        simp only [Prod.mk.injEq] at h2
        obtain ⟨rfl, rfl, rfl, rfl⟩ := h2
        exact ⟨Or.inr ⟨_, rfl⟩, raw_later hI hfit hw h1, fun _ hc => absurd rfl hc⟩
      | failed e' b' =>
        rw [hrr] at hr
        cases b' with
        | true =>
          simp only [runRoutine, Option.map_eq_some_iff] at hr
          obtain ⟨⟨s2, a2⟩, h1, h2⟩ := hr
          simp only [Prod.mk.injEq] at h2
          obtain ⟨rfl, rfl, rfl, rfl⟩ := h2
          exact ⟨Or.inr ⟨_, rfl⟩, raw_later hI hfit hw h1, fun b _ => by cases b <;> simp⟩
        | false =>
          simp only [runRoutine, Option.some.injEq, Prod.mk.injEq] at hr
          obtain ⟨rfl, rfl, rfl, rfl⟩ := hr
          exact ⟨Or.inl rfl, fun h => h, fun b _ => by cases b <;> simp⟩
    obtain ⟨hlog, hlater, hfail⟩ := hrun
    simp only [hr] at h
    by_cases he : e ≠ 0
    · rw [if_pos he] at h
      simp only [Option.some.injEq, Prod.mk.injEq] at h
      obtain ⟨rfl, rfl, rfl⟩ := h
      refine ⟨⟨hlog, hz, fun _ hc => ?_⟩, hlater⟩
      have : e ≠ (ENOTARGETLIB : Int) ∧ e ≠ (ENOPATCH : Int) := by
        rcases hfail true he with h | h <;> exact ha.told _ _ h
      rcases hc with hc | hc
      · exact absurd hc this.1
      · exact absurd hc this.2
    rw [if_neg he] at h
    cases hi : interp t.queueRevert s1 with
    | none => simp [hi] at h
    | some y =>
      obtain ⟨s2, q⟩ := y
      simp only [hi, Option.some.injEq, Prod.mk.injEq] at h
      obtain ⟨rfl, rfl, rfl⟩ := h
      have hl2 := interp_later hI hw1 ht.queueRevert hi
      refine ⟨⟨hlog, hz, fun hh hc => ?_⟩, hlater.trans hl2⟩
      obtain ⟨n1, n2⟩ := interp_code ht.queueRevert hi
      obtain ⟨c1, c2⟩ := hl1 (Decidable.not_not.mp he)
      refine revert_nothing hI hw.k (hlater (hl2 hh)) c2 ?_
      by_cases hq : q ≠ 0 ∧ q ≠ EOLDLIBPULP
      · rw [if_pos hq] at hc
        rcases hc with hc | hc
        · exact absurd (Int.ofNat.inj hc) n1
        · exact absurd (Int.ofNat.inj hc) n2
      · rw [if_neg hq] at hc
        rcases hc with hc | hc
        · exact Or.inl (Int.ofNat.inj hc)
        · exact Or.inr (Int.ofNat.inj hc)

theorem runRoutine_later {m₀ F slot s l fuel r run s' l' e a} (hI : Image m₀ F slot) (hfit : Fits m₀ F slot r)
    (hw : W m₀ F slot s l) (h : runRoutine fuel s r run = some (s', l', e, a)) : Later s s' := by
  cases run with
  | done =>
    simp only [runRoutine, Option.map_eq_some_iff] at h
    obtain ⟨⟨s2, a2⟩, h1, h2⟩ := h
    simp only [Prod.mk.injEq] at h2
    obtain ⟨rfl, -⟩ := h2
    exact raw_later hI hfit hw h1
  | failed e' b' =>
    cases b' with
    | true =>
      simp only [runRoutine, Option.map_eq_some_iff] at h
      obtain ⟨⟨s2, a2⟩, h1, h2⟩ := h
      simp only [Prod.mk.injEq] at h2
      obtain ⟨rfl, -⟩ := h2
      exact raw_later hI hfit hw h1
    | false =>
      simp only [runRoutine, Option.some.injEq, Prod.mk.injEq] at h
      obtain ⟨rfl, -⟩ := h
      exact fun h => h

theorem revertTool_later {m₀ F slot s l fuel x t lib s' l' res} (hI : Image m₀ F slot) (ht : Try.Ok m₀ F slot t)
    (hw : W m₀ F slot s l) (h : revertTool fuel x t lib s = some (s', l', res)) : Later s s' := by
  unfold revertTool at h
  split at h
  · simp only [Option.some.injEq, Prod.mk.injEq] at h
    rw [← h.1]
    exact fun h => h
  cases hr : runRoutine fuel s (.revertAll t.world (revertLib x lib)) t.runRevert with
  | none => simp [hr] at h
  | some p =>
    obtain ⟨s1, l1, e, a⟩ := p
    have hfit : Fits m₀ F slot (.revertAll t.world (revertLib x lib)) := trivial
    obtain ⟨hw1, -⟩ := runRoutine_W hI hfit hw ht.runRevert hr
    have h1 := runRoutine_later hI hfit hw hr
    simp only [hr] at h
    split at h
    · simp only [Option.some.injEq, Prod.mk.injEq] at h
      rw [← h.1]
      exact h1
    cases hi : interp t.queueRevert s1 with
    | none => simp [hi] at h
    | some y =>
      obtain ⟨s2, q⟩ := y
      simp only [hi, Option.some.injEq, Prod.mk.injEq] at h
      rw [← h.1]
      exact h1.trans (interp_later hI hw1 ht.queueRevert hi)

theorem notes_revert (l : Log) (w lib a) : notes [] (l ++ [(.revertAll w lib, a)]) = notes [] l ∨
    notes [] (l ++ [(.revertAll w lib, a)]) = without lib (notes [] l) := by
  rw [notes_append]
  cases a with
  | zero => right; rfl
  | succ n => left; rfl

theorem without_without (lib ps) : without lib (without lib ps) = without lib ps := by simp [without, List.filter_filter]

/-! ### replacing -/

theorem loop_stop {fuel x n i s res} : loop fuel x n 0 i s res = some (s, [], res) := by
  cases n with
  | zero => rfl
  | succ n => unfold loop; rw [if_pos rfl]

/-- An attempt to replace patches: reverting only, or reverting and then applying once. -/
theorem attempt_split {fuel x t s result retry s' l' res retry' lib m} (hl : x.lib = some lib) (hp : x.patch = some m)
    (h : attempt fuel x t s result retry = some (s', l', res, retry')) :
    ∃ s1 l1 r1, revertTool fuel x t lib s = some (s1, l1, r1) ∧
      ((r1 ≠ 0 ∧ r1 ≠ (ENOTARGETLIB : Int) ∧ r1 ≠ (ENOPATCH : Int) ∧ s' = s1 ∧ l' = l1 ∧ res = r1) ∨
       ((r1 = 0 ∨ r1 = (ENOTARGETLIB : Int) ∨ r1 = (ENOPATCH : Int)) ∧ retry' = 0 ∧
         ∃ l2, applyTool fuel t m s1 = some (s', l2, res) ∧ l' = l1 ++ l2)) := by
  unfold attempt at h
  cases hr : revertStep fuel x t s result retry with
  | none => simp [hr] at h
  | some p =>
  obtain ⟨s2, l2, res2, retry2, skip⟩ := p
  simp only [hr, Option.map_eq_some_iff] at h
  obtain ⟨⟨s3, l3, res3, retry3⟩, ha, hb⟩ := h
  simp only [Prod.mk.injEq] at hb
  obtain ⟨rfl, rfl, rfl, rfl⟩ := hb
  unfold revertStep at hr
  simp only [hl, Option.map_eq_some_iff] at hr
  obtain ⟨⟨s4, l4, r4⟩, hrt, hb⟩ := hr
  simp only [hp, Option.isSome_some, true_and, Prod.mk.injEq] at hb
  obtain ⟨rfl, rfl, rfl, rfl, rfl⟩ := hb
  refine ⟨s4, l4, r4, hrt, ?_⟩
  unfold applyStep at ha
  simp only [hp] at ha
  by_cases hn : r4 = (ENOTARGETLIB : Int) ∨ r4 = (ENOPATCH : Int)
  · right
    rw [if_pos hn] at ha
    simp only [ne_eq, not_true_eq_false, decide_false, Bool.false_eq_true, if_false, Option.map_eq_some_iff, or_true, if_true] at ha
    obtain ⟨⟨s5, l5, r5⟩, h5, hb⟩ := ha
    simp only [Prod.mk.injEq] at hb
    obtain ⟨rfl, rfl, rfl, rfl⟩ := hb
    exact ⟨Or.inr hn, by simp, l5, h5, rfl⟩
  · rw [if_neg hn] at ha
    by_cases h0 : r4 = 0
    · right
      subst h0
      simp only [ne_eq, not_true_eq_false, decide_false, Bool.false_eq_true, if_false, Option.map_eq_some_iff, or_true, if_true] at ha
      obtain ⟨⟨s5, l5, r5⟩, h5, hb⟩ := ha
      simp only [Prod.mk.injEq] at hb
      obtain ⟨rfl, rfl, rfl, rfl⟩ := hb
      exact ⟨Or.inl rfl, by simp, l5, h5, rfl⟩
    · left
      simp only [ne_eq, h0, not_false_eq_true, decide_true, if_true, Option.some.injEq, Prod.mk.injEq] at ha
      obtain ⟨rfl, rfl, rfl, -⟩ := ha
      exact ⟨h0, fun hc => hn (Or.inl hc), fun hc => hn (Or.inr hc), rfl, by simp, rfl⟩

/-- What reverting leaves, when applying follows. -/
theorem left_over {x t lib l s' l' res} (h : Reverted x t lib l s' l' res) (hh : healthy s'.err)
    (hr : res = 0 ∨ res = (ENOTARGETLIB : Int) ∨ res = (ENOPATCH : Int)) :
    notes [] (l ++ l') = without (revertLib x lib) (notes [] l) := by
  rcases hr with hr | hr
  · rw [h.zero hr, notes_append]
    rfl
  · have hno := h.nothing hh hr
    have hw : without (revertLib x lib) (notes [] l) = notes [] l := by
      unfold without
      exact filter_self fun q hq => by simpa using hno q hq
    rcases h.log with e | ⟨a, e⟩
    · rw [e, hw, List.append_nil]
    · rw [e]
      rcases notes_revert l t.world (revertLib x lib) a with h | h
      · rw [h, hw]
      · exact h

theorem retried {x t lib l s' l' res} (h : Reverted x t lib l s' l' res) :
    without (revertLib x lib) (notes [] (l ++ l')) = without (revertLib x lib) (notes [] l) := by
  rcases h.log with e | ⟨a, e⟩
  · rw [e, List.append_nil]
  · rw [e]
    rcases notes_revert l t.world (revertLib x lib) a with h | h
    · rw [h]
    · rw [h, without_without]

/-- An internal error stays in the rest of the loop. -/
theorem applyTool_later {m₀ F slot s l fuel t m s' l' res} (hI : Image m₀ F slot) (ht : Try.Ok m₀ F slot t)
    (hfit : Fits m₀ F slot (.apply t.world (.ok m))) (hw : W m₀ F slot s l) (h : applyTool fuel t m s = some (s', l', res)) :
    Later s s' := by
  unfold applyTool at h
  split at h
  · simp only [Option.some.injEq, Prod.mk.injEq] at h
    obtain ⟨rfl, -⟩ := h
    exact fun h => h
  cases hs : t.seccomp with
  | some e =>
    simp only [hs, Option.some.injEq, Prod.mk.injEq] at h
    obtain ⟨rfl, -⟩ := h
    exact fun h => h
  | none =>
  simp only [hs] at h
  have hfit' := fits_applyReq hfit
  cases hr : runRoutine fuel s (applyReq t m) t.runApply with
  | none => simp [hr] at h
  | some p =>
    obtain ⟨s1, l1, e, a⟩ := p
    obtain ⟨hw1, -⟩ := runRoutine_W hI hfit' hw ht.runApply hr
    have hl1 : Later s s1 := by
      cases hrr : t.runApply with
      | done =>
        rw [hrr] at hr
        simp only [runRoutine, Option.map_eq_some_iff] at hr
        obtain ⟨⟨s2, a2⟩, h1, h2⟩ := hr
        simp only [Prod.mk.injEq] at h2
        obtain ⟨rfl, -⟩ := h2
        exact raw_later hI hfit' hw h1
      | failed e' b' =>
        rw [hrr] at hr
        cases b' with
        | true =>
          simp only [runRoutine, Option.map_eq_some_iff] at hr
          obtain ⟨⟨s2, a2⟩, h1, h2⟩ := hr
          simp only [Prod.mk.injEq] at h2
          obtain ⟨rfl, -⟩ := h2
          exact raw_later hI hfit' hw h1
        | false =>
          simp only [runRoutine, Option.some.injEq, Prod.mk.injEq] at hr
          obtain ⟨rfl, -⟩ := hr
          exact fun h => h
    simp only [hr] at h
    split at h
    · simp only [Option.some.injEq, Prod.mk.injEq] at h
      obtain ⟨rfl, -⟩ := h
      exact hl1
    split at h
    · simp only [Option.some.injEq, Prod.mk.injEq] at h
      obtain ⟨rfl, -⟩ := h
      exact hl1
    cases hi : interp t.queueApply s1 with
    | none => simp [hi] at h
    | some y =>
      obtain ⟨s2, q⟩ := y
      simp only [hi, Option.some.injEq, Prod.mk.injEq] at h
      obtain ⟨rfl, -⟩ := h
      exact hl1.trans (interp_later hI hw1 ht.queueApply hi)

/-- A successful run with `--revert-all`. -/
theorem loop_replaced {m₀ F slot fuel x lib m} (hI : Image m₀ F slot) (hx : Session.Ok m₀ F slot x) (hf : Session.Found x)
    (hl : x.lib = some lib) (hp : x.patch = some m) (ht : m.type = 1) (ha : ∀ i, Try.Alone (x.env i)) (n : Nat) :
    ∀ retry i s l result s' l', W m₀ F slot s l → result ≠ 0 → loop fuel x n retry i s result = some (s', l', 0) →
      Later s s' ∧ (healthy s'.err → ∃ j, notes [] (l ++ l') = patchOf (x.env j).world m :: without (revertLib x lib) (notes [] l)) := by
  induction n with
  | zero =>
    intro retry i s l result s' l' hw h0 h
    simp only [loop, Option.some.injEq, Prod.mk.injEq] at h
    exact absurd h.2.2 h0
  | succ n ih =>
    intro retry i s l result s' l' hw h0 h
    unfold loop at h
    split at h
    · simp only [Option.some.injEq, Prod.mk.injEq] at h
      exact absurd h.2.2 h0
    simp only [(ha i).before, serveAll, List.zip_nil_left, List.nil_append] at h
    split at h
    · rename_i hj
      simp only [Option.some.injEq, Prod.mk.injEq] at h
      rw [h.2.2] at hj
      exact absurd hj (by decide)
    cases hat : attempt fuel x (x.env i) s result (retry - 1) with
    | none => simp [hat] at h
    | some q =>
    obtain ⟨s2, l2, res2, retry2⟩ := q
    simp only [hat, Option.map_eq_some_iff] at h
    obtain ⟨⟨s3, l3, res3⟩, hlo, hb⟩ := h
    simp only [Prod.mk.injEq] at hb
    obtain ⟨rfl, rfl, rfl⟩ := hb
    obtain ⟨hd, -⟩ := attempt_W hI hx hw h0 hat
    obtain ⟨s1, l1, r1, hrt, hcase⟩ := attempt_split hl hp hat
    obtain ⟨hrev, hlat⟩ := revertTool_result hI (hx.tries i) (ha i) (hf i).1 hw hrt
    have hw1 : W m₀ F slot s1 (l ++ l1) := (revertTool_W hI (hx.tries i) hw hrt).w
    rcases hcase with ⟨n0, n1, n2, rfl, rfl, rfl⟩ | ⟨hr1, rfl, l5, hap, rfl⟩
    · obtain ⟨c1, c2⟩ := ih retry2 (i + 1) s2 _ res2 s3 l3 hw1 n0 hlo
      refine ⟨hlat.trans c1, fun hh => ?_⟩
      obtain ⟨j, hj⟩ := c2 hh
      exact ⟨j, by rw [← List.append_assoc, hj, retried hrev]⟩
    · rw [loop_stop] at hlo
      simp only [Option.some.injEq, Prod.mk.injEq] at hlo
      obtain ⟨rfl, rfl, rfl⟩ := hlo
      have hlat2 := applyTool_later hI (hx.tries i) (hx.fits m hp i) hw1 hap
      refine ⟨hlat.trans hlat2, fun hh => ⟨i, ?_⟩⟩
      have hres := (applyTool_W hI (hx.tries i) (hx.fits m hp i) hw1 hap).ok rfl (hf i).2
      rw [hres.1, List.append_nil, ← List.append_assoc, notes_append, left_over hrev (hlat2 hh) hr1]
      simp [notes, track, ht]

/-! ### failing to replace -/

theorem interp_fine {m₀ F slot s ps} {f : QFault} (hk : K m₀ F slot s ps) (hw : ∃ ws, Holds s.q ws) (h1 : f.found = true)
    (h2 : f.header = true) (h3 : f.body = none) (h4 : ∀ i, f.write i = none) (h5 : f.reset = none) :
    ∃ s', interp f s = some (s', 0) ∧ (Idle s → s' = s) := by
  obtain ⟨ws, hw⟩ := hw
  obtain ⟨q', hq, hq'⟩ := InsnQueue.fetch_holds hw hk.ver
  have hwr : f.write = fun _ => none := funext h4
  unfold interp
  simp only [h1, h2, h3, h5, hq, hwr, InsnQueue.interpret_holds hq', Bool.not_true, Bool.false_eq_true, if_false,
    ne_eq, not_true_eq_false, Option.isSome_none, and_false]
  refine ⟨_, rfl, fun hi => ?_⟩
  have := holds_idle hi.num hw
  subst this
  exact idle_after hi

theorem revertTool_quiet {m₀ F slot s l fuel x t lib s' l' res} (hI : Image m₀ F slot) (ht : Try.Ok m₀ F slot t) (hq : Try.Quiet t)
    (hw : W m₀ F slot s l) (hi : Idle s) (hh : healthy s'.err) (h : revertTool fuel x t lib s = some (s', l', res)) :
    (res = 0 → Idle s') ∧ (res ≠ 0 → s' = s ∧ ∀ e ∈ l', e.2 ≠ 0) := by
  obtain ⟨-, hlat⟩ := revertTool_result hI ht hq.toAlone hq.found hw h
  have hok := (revertTool_W hI ht hw h).ok
  refine ⟨fun h0 => (hok h0 hq.found).2, fun h0 => ?_⟩
  unfold revertTool at h
  split at h
  · simp only [Option.some.injEq, Prod.mk.injEq] at h
    obtain ⟨rfl, rfl, rfl⟩ := h
    exact ⟨rfl, by simp⟩
  cases hrr : t.runRevert with
  | failed e b =>
    cases b with
    | true => exact absurd hrr (hq.run e)
    | false =>
      simp only [hrr, runRoutine] at h
      rw [if_pos (ht.runRevert e false hrr)] at h
      simp only [Option.some.injEq, Prod.mk.injEq] at h
      obtain ⟨rfl, rfl, rfl⟩ := h
      exact ⟨rfl, by simp⟩
  | done =>
    have hfit : Fits m₀ F slot (.revertAll t.world (revertLib x lib)) := trivial
    simp only [hrr, runRoutine] at h
    cases hr : raw fuel s (.revertAll t.world (revertLib x lib)) with
    | none => simp [hr] at h
    | some p =>
    obtain ⟨s1, a⟩ := p
    have hw1 := hw.raw hI hfit hr
    simp only [hr, Option.map_some, ne_eq, not_true_eq_false, if_false] at h
    obtain ⟨hws, -⟩ := raw_idle hI hfit (hw.k.inv hi) hr
    obtain ⟨s2, h2, h2'⟩ := interp_fine hw1.k hws hq.found hq.header hq.body hq.write hq.reset
    simp only [h2, ne_eq, not_true_eq_false, false_and, if_false, Option.some.injEq, Prod.mk.injEq] at h
    obtain ⟨rfl, rfl, rfl⟩ := h
    rcases revertAll_cases hI (hw.k.inv hi) (hlat hh) hr with ha | ⟨ha, rfl, -⟩
    · subst ha
      exact absurd rfl h0
    · exact ⟨h2' hi, by simpa using ha⟩

theorem applyTool_log {m₀ F slot s l fuel t m s' l' res} (hI : Image m₀ F slot) (hc : Try.Calm t)
    (hfit : Fits m₀ F slot (.apply t.world (.ok m))) (hw : W m₀ F slot s l) (hi : Idle s) (h : applyTool fuel t m s = some (s', l', res))
    (h0 : res ≠ 0) : l' = [] ∨ ∃ a, a ≠ 0 ∧ l' = [(applyReq t m, a)] := by
  unfold applyTool at h
  split at h
  · simp only [Option.some.injEq, Prod.mk.injEq] at h
    obtain ⟨rfl, rfl, rfl⟩ := h
    exact Or.inl rfl
  cases hs : t.seccomp with
  | some e =>
    simp only [hs, Option.some.injEq, Prod.mk.injEq] at h
    obtain ⟨rfl, rfl, rfl⟩ := h
    exact Or.inl rfl
  | none =>
  simp only [hs] at h
  cases hrun : t.runApply with
  | failed e b =>
    cases b with
    | true => exact absurd hrun (hc.run e)
    | false =>
      simp only [hrun, runRoutine] at h
      split at h
      · simp only [Option.some.injEq, Prod.mk.injEq] at h
        obtain ⟨rfl, rfl, rfl⟩ := h
        exact Or.inl rfl
      · simp only [ne_eq, not_true_eq_false, false_and, if_false] at h
        cases hx : interp t.queueApply s with
        | none => simp [hx] at h
        | some y =>
          simp only [hx, Option.some.injEq, Prod.mk.injEq] at h
          exact Or.inl h.2.1.symm
  | done =>
    have hfit' := fits_applyReq hfit
    simp only [hrun, runRoutine] at h
    cases hr : raw fuel s (applyReq t m) with
    | none => simp [hr] at h
    | some p =>
    obtain ⟨s1, a⟩ := p
    have hw1 := hw.raw hI hfit' hr
    simp only [hr, Option.map_some, ne_eq, not_true_eq_false, if_false] at h
    split at h
    · rename_i hx
      simp only [Option.some.injEq, Prod.mk.injEq] at h
      obtain ⟨rfl, rfl, rfl⟩ := h
      exact Or.inr ⟨a, hx.1, rfl⟩
    · obtain ⟨hws, -⟩ := raw_idle hI hfit' (hw.k.inv hi) hr
      obtain ⟨s2, h2⟩ := interp_calm hw1.k hws hc
      simp only [h2, ne_eq, not_true_eq_false, false_and, if_false, Option.some.injEq, Prod.mk.injEq] at h
      obtain ⟨rfl, rfl, rfl⟩ := h
      refine Or.inr ⟨a, fun ha => h0 ?_, rfl⟩
      rw [ha]
      rfl

theorem track_refused_apply {ps : List Patch} {t : Try} {m a} (ha : a ≠ 0) : track ps (applyReq t m) a = ps := by
  unfold applyReq
  cases t.noMem with
  | none =>
    cases a with
    | zero => exact absurd rfl ha
    | succ n => rfl
  | some e => rfl

theorem attempt_later {m₀ F slot s l fuel x i result retry s' l' res retry'} (hI : Image m₀ F slot)
    (hx : Session.Ok m₀ F slot x) (hw : W m₀ F slot s l)
    (h : attempt fuel x (x.env i) s result retry = some (s', l', res, retry')) : Later s s' := by
  have ht := hx.tries i
  unfold attempt at h
  cases hr : revertStep fuel x (x.env i) s result retry with
  | none => simp [hr] at h
  | some p =>
  obtain ⟨s1, l1, res1, retry1, skip⟩ := p
  simp only [hr, Option.map_eq_some_iff] at h
  obtain ⟨⟨s2, l2, res2, retry2⟩, ha, hb⟩ := h
  simp only [Prod.mk.injEq] at hb
  obtain ⟨rfl, rfl, rfl, rfl⟩ := hb
  have h1 : Later s s1 ∧ W m₀ F slot s1 (l ++ l1) := by
    unfold revertStep at hr
    cases hl : x.lib with
    | none =>
      simp only [hl, Option.some.injEq, Prod.mk.injEq] at hr
      obtain ⟨rfl, rfl, -⟩ := hr
      exact ⟨fun h => h, by simpa using hw⟩
    | some lib =>
      simp only [hl, Option.map_eq_some_iff] at hr
      obtain ⟨⟨s3, l3, r3⟩, hrt, hb⟩ := hr
      simp only [Prod.mk.injEq] at hb
      obtain ⟨rfl, rfl, -⟩ := hb
      exact ⟨revertTool_later hI ht hw hrt, (revertTool_W hI ht hw hrt).w⟩
  unfold applyStep at ha
  cases hp : x.patch with
  | none =>
    simp only [hp, Option.some.injEq, Prod.mk.injEq] at ha
    rw [← ha.1]
    exact h1.1
  | some m =>
    simp only [hp] at ha
    split at ha
    · simp only [Option.some.injEq, Prod.mk.injEq] at ha
      rw [← ha.1]
      exact h1.1
    · simp only [Option.map_eq_some_iff] at ha
      obtain ⟨⟨s3, l3, r3⟩, hat, hb⟩ := ha
      simp only [Prod.mk.injEq] at hb
      rw [← hb.1]
      exact h1.1.trans (applyTool_later hI ht (hx.fits m hp i) h1.2 hat)

theorem loop_later {m₀ F slot fuel x} (hI : Image m₀ F slot) (hx : Session.Ok m₀ F slot x)
    (hb : ∀ i, (x.env i).before = []) (n : Nat) :
    ∀ retry i s l result s' l' res, W m₀ F slot s l → result ≠ 0 → loop fuel x n retry i s result = some (s', l', res) → Later s s' := by
  induction n with
  | zero =>
    intro retry i s l result s' l' res hw h0 h
    simp only [loop, Option.some.injEq, Prod.mk.injEq] at h
    rw [← h.1]
    exact fun h => h
  | succ n ih =>
    intro retry i s l result s' l' res hw h0 h
    unfold loop at h
    split at h
    · simp only [Option.some.injEq, Prod.mk.injEq] at h
      rw [← h.1]
      exact fun h => h
    simp only [hb i, serveAll, List.zip_nil_left, List.nil_append] at h
    split at h
    · simp only [Option.some.injEq, Prod.mk.injEq] at h
      rw [← h.1]
      exact fun h => h
    cases hat : attempt fuel x (x.env i) s result (retry - 1) with
    | none => simp [hat] at h
    | some q =>
    obtain ⟨s2, l2, res2, retry2⟩ := q
    simp only [hat, Option.map_eq_some_iff] at h
    obtain ⟨⟨s3, l3, res3⟩, hlo, hb'⟩ := h
    simp only [Prod.mk.injEq] at hb'
    obtain ⟨rfl, rfl, rfl⟩ := hb'
    obtain ⟨hd, hretry⟩ := attempt_W hI hx hw h0 hat
    have h1 := attempt_later hI hx hw hat
    by_cases hz : res2 = 0
    · rw [hretry hz, loop_stop] at hlo
      simp only [Option.some.injEq, Prod.mk.injEq] at hlo
      rw [← hlo.1]
      exact h1
    · exact h1.trans (ih retry2 (i + 1) s2 _ res2 s3 l3 res3 hd.w hz hlo)

/-- A run with `--revert-all` that fails. -/
theorem loop_failed {m₀ F slot fuel x lib m} (hI : Image m₀ F slot) (hx : Session.Ok m₀ F slot x)
    (hl : x.lib = some lib) (hp : x.patch = some m) (hq : ∀ i, Try.Quiet (x.env i)) (n : Nat) :
    ∀ retry i s l result s' l' res, W m₀ F slot s l → Idle s → result ≠ 0 → loop fuel x n retry i s result = some (s', l', res) →
      Later s s' ∧ (res ≠ 0 → healthy s'.err → (s' = s ∧ ∀ e ∈ l', e.2 ≠ 0) ∨
        ((∃ j, (Request.revertAll (x.env j).world (revertLib x lib), 0) ∈ l') ∧ Idle s' ∧
          notes [] (l ++ l') = without (revertLib x lib) (notes [] l))) := by
  induction n with
  | zero =>
    intro retry i s l result s' l' res hw hi h0 h
    simp only [loop, Option.some.injEq, Prod.mk.injEq] at h
    obtain ⟨rfl, rfl, rfl⟩ := h
    exact ⟨fun h => h, fun _ _ => Or.inl ⟨rfl, by simp⟩⟩
  | succ n ih =>
    intro retry i s l result s' l' res hw hi h0 h
    unfold loop at h
    split at h
    · simp only [Option.some.injEq, Prod.mk.injEq] at h
      obtain ⟨rfl, rfl, rfl⟩ := h
      exact ⟨fun h => h, fun _ _ => Or.inl ⟨rfl, by simp⟩⟩
    simp only [(hq i).before, serveAll, List.zip_nil_left, List.nil_append] at h
    split at h
    · simp only [Option.some.injEq, Prod.mk.injEq] at h
      obtain ⟨rfl, rfl, rfl⟩ := h
      exact ⟨fun h => h, fun _ _ => Or.inl ⟨rfl, by simp⟩⟩
    cases hat : attempt fuel x (x.env i) s result (retry - 1) with
    | none => simp [hat] at h
    | some q =>
    obtain ⟨s2, l2, res2, retry2⟩ := q
    simp only [hat, Option.map_eq_some_iff] at h
    obtain ⟨⟨s3, l3, res3⟩, hlo, hb⟩ := h
    simp only [Prod.mk.injEq] at hb
    obtain ⟨rfl, rfl, rfl⟩ := hb
    obtain ⟨s1, l1, r1, hrt, hcase⟩ := attempt_split hl hp hat
    obtain ⟨hrev, hlat⟩ := revertTool_result hI (hx.tries i) (hq i).toAlone (hq i).found hw hrt
    have hw1 : W m₀ F slot s1 (l ++ l1) := (revertTool_W hI (hx.tries i) hw hrt).w
    have hquiet := fun hh => revertTool_quiet hI (hx.tries i) (hq i) hw hi hh hrt
    rcases hcase with ⟨n0, n1, n2, rfl, rfl, rfl⟩ | ⟨hr1, rfl, l5, hap, rfl⟩
    · by_cases hh2 : healthy s2.err
      · obtain ⟨e1, e2⟩ := (hquiet hh2).2 n0
        subst e1
        obtain ⟨c1, c2⟩ := ih retry2 (i + 1) s2 _ res2 s3 l3 res3 hw1 hi n0 hlo
        refine ⟨c1, fun hne hh => ?_⟩
        rcases c2 hne hh with ⟨d1, d2⟩ | ⟨⟨j, d1⟩, d2, d3⟩
        · left
          refine ⟨d1, fun e he => ?_⟩
          rcases List.mem_append.mp he with he | he
          · exact e2 e he
          · exact d2 e he
        · right
          exact ⟨⟨j, List.mem_append_right _ d1⟩, d2, by rw [← List.append_assoc, d3, retried hrev]⟩
      · have hs3 : Later s2 s3 := by
          have hd := loop_later hI hx (fun j => (hq j).before) n retry2 (i + 1) s2 _ res2 s3 l3 res3 hw1 n0 hlo
          exact hd
        exact ⟨hlat.trans hs3, fun _ hh => absurd (hs3 hh) hh2⟩
    · rw [loop_stop] at hlo
      simp only [Option.some.injEq, Prod.mk.injEq] at hlo
      obtain ⟨rfl, rfl, rfl⟩ := hlo
      have hlat2 := applyTool_later hI (hx.tries i) (hx.fits m hp i) hw1 hap
      refine ⟨hlat.trans hlat2, fun hne hh => ?_⟩
      have hh1 := hlat2 hh
      have hi1 : Idle s1 := by
        by_cases h0 : r1 = 0
        · exact (hquiet hh1).1 h0
        · rw [((hquiet hh1).2 h0).1]; exact hi
      have e := (applyTool_calm hI (hx.tries i) (hq i).calm (hx.fits m hp i) hw1 hap).2 hi1 hne hh
      subst e
      have hlog := applyTool_log hI (hq i).calm (hx.fits m hp i) hw1 hi1 hap hne
      by_cases h0 : r1 = 0
      · right
        refine ⟨⟨i, by rw [hrev.zero h0]; simp⟩, hi1, ?_⟩
        rw [← left_over hrev hh1 hr1, List.append_nil, ← List.append_assoc, notes_append]
        rcases hlog with e | ⟨a, ha, e⟩
        · rw [e]; rfl
        · rw [e]
          show track _ _ _ = _
          exact track_refused_apply ha
      · left
        obtain ⟨e1, e2⟩ := (hquiet hh1).2 h0
        refine ⟨e1, fun e he => ?_⟩
        rw [List.append_nil] at he
        rcases List.mem_append.mp he with he | he
        · exact e2 e he
        · rcases hlog with e3 | ⟨a, ha, e3⟩
          · rw [e3] at he; simp at he
          · rw [e3, List.mem_singleton] at he
            rw [he]; exact ha

/-! ### without `--revert-all` -/

theorem applyTool_asked {fuel t m s s' l' res} (h : applyTool fuel t m s = some (s', l', res)) :
    l' = [] ∨ ∃ a, l' = [(applyReq t m, a)] := by
  unfold applyTool at h
  split at h
  · simp only [Option.some.injEq, Prod.mk.injEq] at h
    exact Or.inl h.2.1.symm
  split at h
  · simp only [Option.some.injEq, Prod.mk.injEq] at h
    exact Or.inl h.2.1.symm
  cases hr : runRoutine fuel s (applyReq t m) t.runApply with
  | none => simp [hr] at h
  | some p =>
    obtain ⟨s1, l1, e, a⟩ := p
    have hlog : l1 = [] ∨ ∃ a, l1 = [(applyReq t m, a)] := by
      cases hrr : t.runApply with
      | done =>
        rw [hrr] at hr
        simp only [runRoutine, Option.map_eq_some_iff] at hr
        obtain ⟨⟨s2, a2⟩, h1, h2⟩ := hr
        simp only [Prod.mk.injEq] at h2
        exact Or.inr ⟨_, h2.2.1.symm⟩
      | failed e' b' =>
        rw [hrr] at hr
        cases b' with
        | true =>
          simp only [runRoutine, Option.map_eq_some_iff] at hr
          obtain ⟨⟨s2, a2⟩, h1, h2⟩ := hr
          simp only [Prod.mk.injEq] at h2
          exact Or.inr ⟨_, h2.2.1.symm⟩
        | false =>
          simp only [runRoutine, Option.some.injEq, Prod.mk.injEq] at hr
          exact Or.inl hr.2.1.symm
    simp only [hr] at h
    split at h
    · simp only [Option.some.injEq, Prod.mk.injEq] at h
      rw [← h.2.1]; exact hlog
    split at h
    · simp only [Option.some.injEq, Prod.mk.injEq] at h
      rw [← h.2.1]; exact hlog
    cases hi : interp t.queueApply s1 with
    | none => simp [hi] at h
    | some y =>
      simp only [hi, Option.some.injEq, Prod.mk.injEq] at h
      rw [← h.2.1]; exact hlog

/-- An attempt without `--revert-all`. -/
theorem attempt_plain {fuel x t s result retry s' l' res retry' m} (hl : x.lib = none) (hp : x.patch = some m)
    (h : attempt fuel x t s result retry = some (s', l', res, retry')) : applyTool fuel t m s = some (s', l', res) := by
  simp only [attempt, revertStep, hl, applyStep, hp, Bool.false_eq_true, if_false, Option.map_eq_some_iff] at h
  obtain ⟨y, ⟨z, hz, hzy⟩, hy⟩ := h
  subst hzy
  simp only [Prod.mk.injEq, List.nil_append] at hy
  obtain ⟨rfl, rfl, rfl, -⟩ := hy
  exact hz

/-- Only requests to apply the patch are made. -/
theorem loop_asked {fuel x m} (hl : x.lib = none) (hp : x.patch = some m) (hb : ∀ i, (x.env i).before = []) (n : Nat) :
    ∀ retry i s result s' l' res, loop fuel x n retry i s result = some (s', l', res) → ∀ e ∈ l', ∃ j, e.1 = applyReq (x.env j) m := by
  induction n with
  | zero =>
    intro retry i s result s' l' res h
    simp only [loop, Option.some.injEq, Prod.mk.injEq] at h
    rw [← h.2.1]; simp
  | succ n ih =>
    intro retry i s result s' l' res h
    unfold loop at h
    split at h
    · simp only [Option.some.injEq, Prod.mk.injEq] at h
      rw [← h.2.1]; simp
    simp only [hb i, serveAll, List.zip_nil_left, List.nil_append] at h
    split at h
    · simp only [Option.some.injEq, Prod.mk.injEq] at h
      rw [← h.2.1]; simp
    cases hat : attempt fuel x (x.env i) s result (retry - 1) with
    | none => simp [hat] at h
    | some q =>
    obtain ⟨s2, l2, res2, retry2⟩ := q
    simp only [hat, Option.map_eq_some_iff] at h
    obtain ⟨⟨s3, l3, res3⟩, hlo, hb'⟩ := h
    simp only [Prod.mk.injEq] at hb'
    obtain ⟨rfl, rfl, rfl⟩ := hb'
    intro e he
    rcases List.mem_append.mp he with he | he
    · rcases applyTool_asked (attempt_plain hl hp hat) with h | ⟨a, h⟩
      · rw [h] at he; simp at he
      · rw [h, List.mem_singleton] at he
        exact ⟨i, by rw [he]⟩
    · exact ih _ _ _ _ _ _ _ hlo e he

/-- Such requests only add patches. -/
theorem notes_grow {ps : List Patch} {m : Meta} (ht : m.type = 1) (l : Log) (h : ∀ e ∈ l, ∃ t, e.1 = applyReq t m) :
    ∃ new, notes ps l = new ++ ps := by
  induction l generalizing ps with
  | nil => exact ⟨[], rfl⟩
  | cons e l ih =>
    obtain ⟨t, ht'⟩ := h e (by simp)
    have h1 : ∃ new, track ps e.1 e.2 = new ++ ps := by
      by_cases h0 : e.2 = 0
      · rw [ht', h0]
        unfold applyReq
        cases t.noMem with
        | none => exact ⟨[patchOf t.world m], by simp [track, ht]⟩
        | some e => exact ⟨[], rfl⟩
      · exact ⟨[], by rw [ht', track_refused_apply h0]; rfl⟩
    obtain ⟨n1, h1⟩ := h1
    obtain ⟨n2, h2⟩ := ih (ps := track ps e.1 e.2) fun e he => h e (by simp [he])
    refine ⟨n2 ++ n1, ?_⟩
    show notes (track ps e.1 e.2) l = _
    rw [h2, h1, List.append_assoc]

theorem notes_refused {ps : List Patch} {m : Meta} (l : Log) (h : ∀ e ∈ l, e.2 ≠ 0 ∧ ∃ t, e.1 = applyReq t m) : notes ps l = ps := by
  induction l generalizing ps with
  | nil => rfl
  | cons e l ih =>
    obtain ⟨h0, t, ht⟩ := h e (by simp)
    show notes (track ps e.1 e.2) l = _
    rw [ht, track_refused_apply h0]
    exact ih fun e he => h e (by simp [he])

/-! ### when nothing goes wrong -/

theorem apply_accepted {m₀ F slot s ps w m} (hI : Image m₀ F slot) (hinv : Inv m₀ F slot s ps) (he : s.err = ENONE) (hs : Suits F w m)
    (hdeps : ∀ d ∈ m.deps, d ∈ ids ps) (hid : m.id ∉ ids ps) (fuel : Nat) :
    ∃ s', raw fuel s (.apply w (.ok m)) = some (s', 0) ∧ s'.err = ENONE := by
  have hg := hinv.good (Or.inl he)
  obtain ⟨so, hso, hso0⟩ := hs.base
  have hacc := Flow.loadPatch_accepts (w := w) (m := m) (s := s) hs.type hs.buildId hs.loads ?_ ?_ ?_ hs.names hs.lib hso hso0 ?_
  · simp only [raw]
    unfold applyPatch
    rw [gate_clean hinv.clean, if_neg (by simp [he]), if_neg (by simp [hs.idle])]
    simp only
    exact ⟨(loadPatch w m s).1, by rw [← hacc.1], by rw [hacc.2, he]⟩
  · intro d hd
    have := hdeps d hd
    simp only [ids, ← hg.shown, List.map_map, List.mem_map] at this
    obtain ⟨p, hp, e⟩ := this
    exact ⟨p, hp, e⟩
  · intro p hp e
    apply hid
    simp only [ids, ← hg.shown, List.map_map, List.mem_map]
    exact ⟨p, hp, e⟩
  · intro u hu
    obtain ⟨hF, hn⟩ := hs.units u hu
    refine ⟨?_, hn, (hg.ready hI.range _ hF).1⟩
    have := (hI.range _ hF).1
    omega
  · rw [hinv.clean.size, Nat.zero_add]
    exact hs.small

theorem apply_refused {m₀ F slot s ps w m} (hinv : Inv m₀ F slot s ps) (he : s.err = ENONE) (hs : Suits F w m)
    (hno : m.id ∈ ids ps ∨ ∃ d ∈ m.deps, d ∉ ids ps) (fuel : Nat) :
    ∃ a, a ≠ 0 ∧ raw fuel s (.apply w (.ok m)) = some (s, a) := by
  have hg := hinv.good (Or.inl he)
  have hsan : sanity w m s ≠ 0 := by
    unfold sanity
    rw [if_neg (by simp [hs.buildId])]
    by_cases hd : depsOk s m.deps = true
    · rw [if_neg (by simp [hd])]
      have hin : m.id ∈ ids ps := by
        rcases hno with h | ⟨d, h1, h2⟩
        · exact h
        · exfalso
          apply h2
          unfold depsOk at hd
          rw [List.all_eq_true] at hd
          have := hd d h1
          rw [List.any_eq_true] at this
          obtain ⟨p, hp, e⟩ := this
          simp only [ids, ← hg.shown, List.map_map, List.mem_map]
          exact ⟨p, hp, by simpa [toPatch] using e⟩
      rw [if_pos]
      · decide
      · simp only [ids, ← hg.shown, List.map_map, List.mem_map] at hin
        obtain ⟨p, hp, e⟩ := hin
        unfold getApplied
        rw [List.find?_isSome]
        exact ⟨p, hp, by simpa [toPatch] using e⟩
    · rw [if_pos (by simpa using hd)]
      decide
  have ht2 : m.type ≠ 2 := by rw [hs.type]; decide
  refine ⟨sanity w m s, hsan, ?_⟩
  simp only [raw]
  unfold applyPatch
  rw [gate_clean hinv.clean, if_neg (by simp [he]), if_neg (by simp [hs.idle])]
  simp only
  unfold loadPatch
  simp only [if_neg ht2]
  rw [if_pos hsan]

theorem applyReq_smooth {t : Try} (h : Try.Smooth t) (m : Meta) : applyReq t m = .apply t.world (.ok m) := by
  simp [applyReq, h.noMem]

/-- One attempt. -/
theorem attempt_eq {fuel x t s result retry m s' l' res} (hl : x.lib = none) (hp : x.patch = some m)
    (h : applyTool fuel t m s = some (s', l', res)) :
    ∃ retry', attempt fuel x t s result retry = some (s', l', res, retry') := by
  simp only [attempt, revertStep, hl, applyStep, hp, Bool.false_eq_true, if_false, h, Option.map_some, List.nil_append]
  exact ⟨_, rfl⟩

theorem applyTool_refused {m₀ F slot s l fuel t m} (hs : Try.Smooth t) (hu : Suits F t.world m) (hw : W m₀ F slot s l) (hi : Idle s)
    (he : s.err = ENONE) (hno : m.id ∈ ids (notes [] l) ∨ ∃ d ∈ m.deps, d ∉ ids (notes [] l)) :
    ∃ a r, a ≠ 0 ∧ r ≠ 0 ∧ applyTool fuel t m s = some (s, [(applyReq t m, a)], r) := by
  obtain ⟨a, ha, hr⟩ := apply_refused (hw.k.inv hi) he hu hno fuel
  rw [← applyReq_smooth hs] at hr
  unfold applyTool
  simp only [hs.metadata, hs.seccomp, hs.done, runRoutine, hr, Option.map_some, Bool.not_true, Bool.false_eq_true, if_false, ne_eq,
    not_true_eq_false]
  by_cases hx : a ≠ 0 ∧ a ≠ EAGAIN ∧ a = t.rax
  · refine ⟨a, EHOOKNOTRUN, ha, by decide, ?_⟩
    rw [if_pos hx]
  · rw [if_neg hx]
    obtain ⟨s2, h2, h3⟩ := interp_fine hw.k ⟨[], hi.holds⟩ hs.found hs.header hs.body hs.write hs.reset
    rw [h3 hi] at h2
    refine ⟨a, a, ha, by omega, ?_⟩
    simp only [h2, not_true_eq_false, false_and, if_false]

theorem applyTool_accepted {m₀ F slot s l fuel t m} (hI : Image m₀ F slot) (ht : Try.Ok m₀ F slot t) (hs : Try.Smooth t)
    (hu : Suits F t.world m) (hfit : Fits m₀ F slot (.apply t.world (.ok m))) (hw : W m₀ F slot s l) (hi : Idle s)
    (he : s.err = ENONE) (hdeps : ∀ d ∈ m.deps, d ∈ ids (notes [] l)) (hid : m.id ∉ ids (notes [] l)) :
    ∃ s', applyTool fuel t m s = some (s', [(applyReq t m, 0)], 0) ∧ s'.err = ENONE ∧ Idle s' := by
  obtain ⟨s1, hr, he1⟩ := apply_accepted hI (hw.k.inv hi) he hu hdeps hid fuel
  obtain ⟨hws, -⟩ := raw_idle hI hfit (hw.k.inv hi) hr
  have hw1 := hw.raw hI hfit hr
  rw [← applyReq_smooth hs] at hr
  obtain ⟨s2, h2, -⟩ := interp_fine hw1.k hws hs.found hs.header hs.body hs.write hs.reset
  obtain ⟨-, k2, -, -, k5⟩ := interp_K hI hw1.k ht.queueApply h2
  refine ⟨s2, ?_, by rw [k2, he1], k5 rfl⟩
  unfold applyTool
  simp only [hs.metadata, hs.seccomp, hs.done, runRoutine, hr, Option.map_some, Bool.not_true, Bool.false_eq_true, if_false, ne_eq,
    not_true_eq_false, false_and, h2, Int.ofNat_zero]

theorem loop_refused {m₀ F slot fuel x m} (hl : x.lib = none) (hp : x.patch = some m)
    (hs : ∀ i, Try.Smooth (x.env i)) (hu : ∀ i, Suits F (x.env i).world m) (n : Nat) :
    ∀ retry i s l result, W m₀ F slot s l → Idle s → s.err = ENONE →
      (m.id ∈ ids (notes [] l) ∨ ∃ d ∈ m.deps, d ∉ ids (notes [] l)) → result ≠ 0 →
      ∃ l' r, loop fuel x n retry i s result = some (s, l', r) ∧ r ≠ 0 ∧ ∀ e ∈ l', e.2 ≠ 0 ∧ ∃ t, e.1 = applyReq t m := by
  induction n with
  | zero =>
    intro retry i s l result hw hi he hno h0
    exact ⟨[], result, rfl, h0, by simp⟩
  | succ n ih =>
    intro retry i s l result hw hi he hno h0
    unfold loop
    by_cases hr : retry = 0
    · rw [if_pos hr]
      exact ⟨[], result, rfl, h0, by simp⟩
    rw [if_neg hr]
    simp only [(hs i).before, serveAll, List.zip_nil_left, List.nil_append]
    rw [if_neg (hs i).hijack]
    obtain ⟨a, r, ha, hr0, hat⟩ := applyTool_refused (fuel := fuel) (hs i) (hu i) hw hi he hno
    obtain ⟨retry', hatt⟩ := attempt_eq (result := result) (retry := retry - 1) hl hp hat
    obtain ⟨l2, r2, h1, h2, h3⟩ := ih retry' (i + 1) s l r hw hi he hno hr0
    simp only [hatt, h1, Option.map_some]
    refine ⟨_, r2, rfl, h2, fun e he => ?_⟩
    rcases List.mem_append.mp he with he | he
    · rw [List.mem_singleton] at he
      rw [he]
      exact ⟨ha, _, rfl⟩
    · exact h3 e he

/-- One live patch when nothing goes wrong: it is accepted if and only if it is not applied and all it depends on is. -/
theorem one_smooth {m₀ F slot s l fuel retries f} (hI : Image m₀ F slot) (hf : Found.Smooth F f)
    (hok : Session.Ok m₀ F slot (f.session none retries)) (hr : retries ≠ 0) (hw : W m₀ F slot s l) (hi : Idle s) (he : s.err = ENONE) :
    ∃ s' l' r, one fuel none retries s f = some (s', l', r) ∧ Idle s' ∧ s'.err = ENONE ∧ W m₀ F slot s' (l ++ l') ∧
      ((f.patch.id ∉ ids (notes [] l) ∧ (∀ d ∈ f.patch.deps, d ∈ ids (notes [] l)) ∧ r = 0 ∧
          notes [] (l ++ l') = patchOf (f.env 0).world f.patch :: notes [] l) ∨
       ((f.patch.id ∈ ids (notes [] l) ∨ ∃ d ∈ f.patch.deps, d ∉ ids (notes [] l)) ∧ r ≠ 0 ∧ s' = s ∧ notes [] (l ++ l') = notes [] l)) := by
  unfold one
  rw [hf.early]
  simp only
  by_cases hc : f.patch.id ∉ ids (notes [] l) ∧ ∀ d ∈ f.patch.deps, d ∈ ids (notes [] l)
  · obtain ⟨s', hat, he', hi'⟩ := applyTool_accepted (fuel := fuel) hI (hok.tries 0) (hf.tries 0) (hf.suits 0) (hok.fits _ rfl 0) hw hi he hc.2 hc.1
    obtain ⟨retry', hatt⟩ := attempt_eq (x := f.session none retries) (result := -1) (retry := retries - 1) rfl rfl hat
    have hses : session fuel s (f.session none retries) = some (s', [(applyReq (f.env 0) f.patch, 0)], 0) := by
      obtain ⟨n, rfl⟩ : ∃ n, retries = n + 1 := ⟨retries - 1, by omega⟩
      have h0 := (attempt_W hI hok hw (by decide) hatt).2 rfl
      subst h0
      unfold session loop
      simp only [Found.session] at hatt ⊢
      rw [if_neg (by omega)]
      simp only [(hf.tries 0).before, serveAll, List.zip_nil_left, List.nil_append]
      rw [if_neg (hf.tries 0).hijack]
      simp only [hatt, loop_stop, Option.map_some, List.append_nil]
    refine ⟨s', _, 0, hses, hi', he', (session_W hI hok hw hses).w, Or.inl ⟨hc.1, hc.2, rfl, ?_⟩⟩
    rw [notes_append, applyReq_smooth (hf.tries 0)]
    simp [notes, track, (hf.suits 0).type]
  · have hno : f.patch.id ∈ ids (notes [] l) ∨ ∃ d ∈ f.patch.deps, d ∉ ids (notes [] l) := by
      by_cases h1 : f.patch.id ∈ ids (notes [] l)
      · exact Or.inl h1
      · right
        apply Classical.byContradiction
        intro h2
        refine hc ⟨h1, fun d hd => ?_⟩
        apply Classical.byContradiction
        intro h3
        exact h2 ⟨d, hd, h3⟩
    obtain ⟨l', r, h1, h2, h3⟩ := loop_refused (fuel := fuel) (x := f.session none retries) rfl rfl hf.tries hf.suits
      retries retries 0 s l (-1) hw hi he hno (by decide)
    refine ⟨s, l', r, h1, hi, he, (session_W hI hok hw h1).w, Or.inr ⟨hno, h2, rfl, ?_⟩⟩
    rw [notes_append, notes_refused l' h3]

/-! ### several live patches -/

/-- The invariant after several live patches. -/
theorem one_W {m₀ F slot fuel lib retries s l f s' l' r} (hI : Image m₀ F slot) (hf : Found.Ok m₀ F slot f) (hw : W m₀ F slot s l)
    (h : one fuel lib retries s f = some (s', l', r)) : W m₀ F slot s' (l ++ l') := by
  unfold one at h
  split at h
  · simp only [Option.some.injEq, Prod.mk.injEq] at h
    obtain ⟨rfl, rfl, rfl⟩ := h
    simpa using hw
  · exact (session_W hI (hf.session lib retries) hw h).w

theorem many_W {m₀ F slot fuel lib retries} (hI : Image m₀ F slot) (fs : List Found) (hfs : ∀ f ∈ fs, Found.Ok m₀ F slot f) :
    ∀ s l s' l' rs, W m₀ F slot s l → many fuel lib retries s fs = some (s', l', rs) → W m₀ F slot s' (l ++ l') := by
  induction fs with
  | nil =>
    intro s l s' l' rs hw h
    simp only [many, Option.some.injEq, Prod.mk.injEq] at h
    obtain ⟨rfl, rfl, rfl⟩ := h
    simpa using hw
  | cons f fs ih =>
    intro s l s' l' rs hw h
    unfold many at h
    cases h1 : one fuel lib retries s f with
    | none => simp [h1] at h
    | some p =>
    obtain ⟨s1, l1, r1⟩ := p
    simp only [h1, Option.map_eq_some_iff] at h
    obtain ⟨⟨s2, l2, rs2⟩, h2, hb⟩ := h
    simp only [Prod.mk.injEq] at hb
    obtain ⟨rfl, rfl, rfl⟩ := hb
    rw [← List.append_assoc]
    exact ih (fun g hg => hfs g (by simp [hg])) s1 _ s2 l2 rs2 (one_W hI (hfs f (by simp)) hw h1) h2

theorem many_append {fuel lib retries} (fs gs : List Found) :
    ∀ s s' l' rs, many fuel lib retries s (fs ++ gs) = some (s', l', rs) →
      ∃ s1 l1 rs1 l2 rs2, many fuel lib retries s fs = some (s1, l1, rs1) ∧ many fuel lib retries s1 gs = some (s', l2, rs2) ∧
        l' = l1 ++ l2 ∧ rs = rs1 ++ rs2 ∧ rs1.length = fs.length := by
  induction fs with
  | nil =>
    intro s s' l' rs h
    exact ⟨s, [], [], l', rs, rfl, h, rfl, rfl, rfl⟩
  | cons f fs ih =>
    intro s s' l' rs h
    simp only [List.cons_append] at h
    unfold many at h
    cases h1 : one fuel lib retries s f with
    | none => simp [h1] at h
    | some p =>
    obtain ⟨s1, l1, r1⟩ := p
    simp only [h1, Option.map_eq_some_iff] at h
    obtain ⟨⟨s2, l2, rs2⟩, h2, hb⟩ := h
    simp only [Prod.mk.injEq] at hb
    obtain ⟨rfl, rfl, rfl⟩ := hb
    obtain ⟨s3, l3, rs3, l4, rs4, h3, h4, rfl, rfl, h5⟩ := ih s1 s2 l2 rs2 h2
    refine ⟨s3, l1 ++ l3, r1 :: rs3, l4, rs4, ?_, h4, by rw [List.append_assoc], rfl, by simp [h5]⟩
    unfold many
    simp only [h1, h3, Option.map_some]

theorem many_one {fuel lib retries s f s' l' rs} (h : many fuel lib retries s [f] = some (s', l', rs)) :
    ∃ r, rs = [r] ∧ one fuel lib retries s f = some (s', l', r) := by
  unfold many at h
  cases h1 : one fuel lib retries s f with
  | none => simp [h1] at h
  | some p =>
    obtain ⟨s1, l1, r1⟩ := p
    simp only [h1, many, Option.map_some, List.append_nil, Option.some.injEq, Prod.mk.injEq] at h
    obtain ⟨rfl, rfl, rfl⟩ := h
    exact ⟨r1, rfl, rfl⟩

/-- Without `--revert-all`, patches in force stay in force. -/
theorem one_grows {fuel retries s f s' l' r} (ht : f.patch.type = 1) (hb : ∀ i, (f.env i).before = []) (ps : List Patch)
    (h : one fuel none retries s f = some (s', l', r)) : ∃ new, notes ps l' = new ++ ps := by
  unfold one at h
  split at h
  · simp only [Option.some.injEq, Prod.mk.injEq] at h
    obtain ⟨rfl, rfl, rfl⟩ := h
    exact ⟨[], rfl⟩
  · have := loop_asked (x := f.session none retries) rfl rfl hb retries _ _ _ _ _ _ _ h
    exact notes_grow ht l' fun e he => by
      obtain ⟨j, hj⟩ := this e he
      exact ⟨_, hj⟩

theorem many_grows {fuel retries} (fs : List Found) (hfs : ∀ f ∈ fs, f.patch.type = 1 ∧ ∀ i, (f.env i).before = []) :
    ∀ s s' l' rs (ps : List Patch), many fuel none retries s fs = some (s', l', rs) → ∃ new, notes ps l' = new ++ ps := by
  induction fs with
  | nil =>
    intro s s' l' rs ps h
    simp only [many, Option.some.injEq, Prod.mk.injEq] at h
    obtain ⟨rfl, rfl, rfl⟩ := h
    exact ⟨[], rfl⟩
  | cons f fs ih =>
    intro s s' l' rs ps h
    unfold many at h
    cases h1 : one fuel none retries s f with
    | none => simp [h1] at h
    | some p =>
    obtain ⟨s1, l1, r1⟩ := p
    simp only [h1, Option.map_eq_some_iff] at h
    obtain ⟨⟨s2, l2, rs2⟩, h2, hb⟩ := h
    simp only [Prod.mk.injEq] at hb
    obtain ⟨rfl, rfl, rfl⟩ := hb
    obtain ⟨n1, e1⟩ := one_grows (hfs f (by simp)).1 (hfs f (by simp)).2 ps h1
    obtain ⟨n2, e2⟩ := ih (fun g hg => hfs g (by simp [hg])) s1 s2 l2 rs2 (n1 ++ ps) h2
    exact ⟨n2 ++ n1, by rw [notes_append, e1, e2, List.append_assoc]⟩

theorem ids_grow {new ps : List Patch} {d} (h : d ∈ ids ps) : d ∈ ids (new ++ ps) := by
  simp only [ids, List.map_append, List.mem_append]
  exact Or.inr h

/-- All live patches together when nothing goes wrong. -/
theorem many_smooth {m₀ F slot fuel retries} (hI : Image m₀ F slot) (hr : retries ≠ 0) (fs : List Found)
    (hfs : ∀ f ∈ fs, Found.Smooth F f ∧ Found.Ok m₀ F slot f) :
    ∀ s l, W m₀ F slot s l → Idle s → s.err = ENONE →
      ∃ s' l' rs, many fuel none retries s fs = some (s', l', rs) ∧ Idle s' ∧ s'.err = ENONE ∧ W m₀ F slot s' (l ++ l') ∧
        (∃ new, notes [] (l ++ l') = new ++ notes [] l) ∧
        (∀ f ∈ fs, (∀ d ∈ f.patch.deps, d ∈ ids (notes [] l)) → f.patch.id ∈ ids (notes [] (l ++ l'))) := by
  induction fs with
  | nil =>
    intro s l hw hi he
    exact ⟨s, [], [], rfl, hi, he, by simpa using hw, ⟨[], by simp⟩, by simp⟩
  | cons f fs ih =>
    intro s l hw hi he
    obtain ⟨hs, hok⟩ := hfs f (by simp)
    obtain ⟨s1, l1, r1, h1, hi1, he1, hw1, hc⟩ := one_smooth (fuel := fuel) hI hs (hok.session none retries) hr hw hi he
    obtain ⟨s2, l2, rs2, h2, hi2, he2, hw2, ⟨n2, e2⟩, h3⟩ := ih (fun g hg => hfs g (by simp [hg])) s1 (l ++ l1) hw1 hi1 he1
    obtain ⟨n1, e1⟩ : ∃ new, notes [] (l ++ l1) = new ++ notes [] l := by
      rcases hc with ⟨-, -, -, e⟩ | ⟨-, -, -, e⟩
      · exact ⟨[_], by rw [e]; rfl⟩
      · exact ⟨[], by rw [e]; rfl⟩
    refine ⟨s2, l1 ++ l2, r1 :: rs2, ?_, hi2, he2, by rw [← List.append_assoc]; exact hw2,
      ⟨n2 ++ n1, by rw [← List.append_assoc, e2, e1, List.append_assoc]⟩, ?_⟩
    · unfold many
      simp only [h1, h2, Option.map_some]
    · intro g hg hd
      rw [← List.append_assoc]
      rcases List.mem_cons.mp hg with rfl | hg
      · rw [e2]
        apply ids_grow
        rcases hc with ⟨-, -, -, e⟩ | ⟨hno, -, -, e⟩
        · rw [e]; simp [ids, patchOf]
        · rw [e]
          rcases hno with h | ⟨d, hd1, hd2⟩
          · exact h
          · exact absurd (hd d hd1) hd2
      · exact h3 g hg fun d hd' => by rw [e1]; exact ids_grow (hd d hd')

theorem inOrder_mono (fs : List Found) : ∀ a b : List (List UInt8), (∀ d ∈ a, d ∈ b) → InOrder a fs → InOrder b fs := by
  induction fs with
  | nil => intros; trivial
  | cons f fs ih =>
    rintro a b h ⟨h1, h2⟩
    refine ⟨fun d hd => h d (h1 d hd), ih _ _ ?_ h2⟩
    intro d hd
    rcases List.mem_cons.mp hd with rfl | hd
    · simp
    · simp [h d hd]

/-- Each time, the next one in order is in force at the latest. -/
theorem again_smooth {m₀ F slot fuel retries} (hI : Image m₀ F slot) (hr : retries ≠ 0) (fs : List Found)
    (hfs : ∀ f ∈ fs, Found.Smooth F f ∧ Found.Ok m₀ F slot f) (n : Nat) :
    ∀ (ord : List Found) s l, (∀ f ∈ ord, f ∈ fs) → ord.length ≤ n → InOrder (ids (notes [] l)) ord → W m₀ F slot s l → Idle s → s.err = ENONE →
      ∃ s' l' rs, again fuel retries fs n s = some (s', l', rs) ∧ Idle s' ∧ s'.err = ENONE ∧ W m₀ F slot s' (l ++ l') ∧
        (∃ new, notes [] (l ++ l') = new ++ notes [] l) ∧ ∀ f ∈ ord, f.patch.id ∈ ids (notes [] (l ++ l')) := by
  induction n with
  | zero =>
    intro ord s l hsub hlen ho hw hi he
    have : ord = [] := List.length_eq_zero_iff.mp (by omega)
    subst this
    exact ⟨s, [], [], rfl, hi, he, by simpa using hw, ⟨[], by simp⟩, by simp⟩
  | succ n ih =>
    intro ord s l hsub hlen ho hw hi he
    obtain ⟨s1, l1, rs1, h1, hi1, he1, hw1, ⟨n1, e1⟩, h3⟩ := many_smooth (fuel := fuel) hI hr fs hfs s l hw hi he
    have key : ∃ ord', (∀ f ∈ ord', f ∈ ord) ∧ ord'.length ≤ n ∧ InOrder (ids (notes [] (l ++ l1))) ord' ∧
        ∀ f ∈ ord, f ∈ ord' ∨ f.patch.id ∈ ids (notes [] (l ++ l1)) := by
      cases ord with
      | nil => exact ⟨[], by simp, by simp, trivial, by simp⟩
      | cons f ord =>
        obtain ⟨ho1, ho2⟩ := ho
        have hin := h3 f (hsub f (by simp)) ho1
        refine ⟨ord, fun g hg => by simp [hg], by simpa using hlen, inOrder_mono _ _ _ ?_ ho2, ?_⟩
        · intro d hd
          rcases List.mem_cons.mp hd with rfl | hd
          · exact hin
          · rw [e1]; exact ids_grow hd
        · intro g hg
          rcases List.mem_cons.mp hg with rfl | hg
          · exact Or.inr hin
          · exact Or.inl hg
    obtain ⟨ord', k1, k2, k3, k4⟩ := key
    obtain ⟨s2, l2, rs2, h2, hi2, he2, hw2, ⟨n2, e2⟩, h4⟩ := ih ord' s1 (l ++ l1) (fun f hf => hsub f (k1 f hf)) k2 k3 hw1 hi1 he1
    refine ⟨s2, l1 ++ l2, rs1 :: rs2, ?_, hi2, he2, by rw [← List.append_assoc]; exact hw2,
      ⟨n2 ++ n1, by rw [← List.append_assoc, e2, e1, List.append_assoc]⟩, ?_⟩
    · unfold again
      simp only [h1, h2, Option.map_some]
    · intro f hf
      rw [← List.append_assoc]
      rcases k4 f hf with h | h
      · exact h4 f h
      · rw [e2]; exact ids_grow h

/-- In a good order, one time is enough. -/
theorem many_inOrder {m₀ F slot fuel retries} (hI : Image m₀ F slot) (hr : retries ≠ 0) (fs : List Found)
    (hfs : ∀ f ∈ fs, Found.Smooth F f ∧ Found.Ok m₀ F slot f) (hnd : (fs.map fun f => f.patch.id).Nodup) :
    ∀ s l, InOrder (ids (notes [] l)) fs → (∀ f ∈ fs, f.patch.id ∉ ids (notes [] l)) → W m₀ F slot s l → Idle s → s.err = ENONE →
      ∃ s' l' rs, many fuel none retries s fs = some (s', l', rs) ∧ Idle s' ∧ s'.err = ENONE ∧ W m₀ F slot s' (l ++ l') ∧
        (∀ r ∈ rs, r = 0) ∧ rs.length = fs.length ∧
        notes [] (l ++ l') = (fs.map fun f => patchOf (f.env 0).world f.patch).reverse ++ notes [] l := by
  induction fs with
  | nil =>
    intro s l _ _ hw hi he
    exact ⟨s, [], [], rfl, hi, he, by simpa using hw, by simp, rfl, by simp⟩
  | cons f fs ih =>
    intro s l ho hnew hw hi he
    obtain ⟨hs, hok⟩ := hfs f (by simp)
    obtain ⟨ho1, ho2⟩ := ho
    rw [List.map_cons, List.nodup_cons] at hnd
    obtain ⟨s1, l1, r1, h1, hi1, he1, hw1, hc⟩ := one_smooth (fuel := fuel) hI hs (hok.session none retries) hr hw hi he
    rcases hc with ⟨-, -, rfl, e⟩ | ⟨hno, -⟩
    · obtain ⟨s2, l2, rs2, h2, hi2, he2, hw2, hz, hlen, e2⟩ := ih (fun g hg => hfs g (by simp [hg])) hnd.2 s1 (l ++ l1) (by rw [e]; exact ho2) (by
        intro g hg hc
        rw [e] at hc
        simp only [ids, List.map_cons, List.mem_cons] at hc
        rcases hc with hc | hc
        · exact hnd.1 (List.mem_map.mpr ⟨g, hg, hc⟩)
        · exact hnew g (by simp [hg]) hc) hw1 hi1 he1
      refine ⟨s2, l1 ++ l2, 0 :: rs2, ?_, hi2, he2, by rw [← List.append_assoc]; exact hw2, ?_, by simp [hlen], ?_⟩
      · unfold many
        simp only [h1, h2, Option.map_some]
      · intro r hr
        rcases List.mem_cons.mp hr with rfl | hr
        · rfl
        · exact hz r hr
      · rw [← List.append_assoc, e2, e]
        simp
    · rcases hno with h | ⟨d, hd1, hd2⟩
      · exact absurd h (hnew f (by simp))
      · exact absurd (ho1 d hd1) hd2

/-! ### a patch that depends on one of those that are reverted -/

theorem reverts_something {m₀ F slot s ps fuel w lib s' a} (hI : Image m₀ F slot) (hinv : Inv m₀ F slot s ps) (he : s.err = ENONE)
    (hb : w.busy = false) (hlen : basenameOff lib < 256) (hex : ∃ p ∈ ps, p.lib = libKey lib)
    (h : raw fuel s (.revertAll w lib) = some (s', a)) : a = 0 := by
  have hg := hinv.good (Or.inl he)
  simp only [raw] at h
  unfold revertAll at h
  rw [gate_clean hinv.clean, if_neg (by simp [he]), if_neg (by simp [hb])] at h
  simp only at h
  rw [if_neg (show ¬ pathLen ≤ basenameOff lib by unfold pathLen; omega)] at h
  simp only [Option.map_eq_some_iff] at h
  obtain ⟨⟨s1, e⟩, h1, h2⟩ := h
  obtain ⟨ws, -, -, -, -, a5, -⟩ := revertAllLoop_ok hI fuel s.patches ENOTARGETLIB s s.mem _ hg
    (hg.ready hI.range) hg.libs hg.ids s1 e h1
  have he0 : e = 0 := by
    apply a5
    obtain ⟨p, hp, hpl⟩ := hex
    rw [← hg.shown] at hp
    obtain ⟨q, hq, rfl⟩ := List.mem_map.mp hp
    exact ⟨q, hq, hpl⟩
  subst he0
  simp only at h2
  rw [if_neg (by rintro ⟨h, -⟩; simp [ENOTARGETLIB] at h)] at h2
  exact (Prod.mk.inj h2).2.symm

theorem loop_reverts {m₀ F slot fuel x lib m n i s l result s' l' res} (hI : Image m₀ F slot)
    (hl : x.lib = some lib) (hp : x.patch = some m) (hb : (x.env i).before = []) (hr : Try.Reverts (x.env i)) (hw : W m₀ F slot s l) (hi : Idle s)
    (he : s.err = ENONE) (hlen : basenameOff (revertLib x lib) < 256) (hex : ∃ p ∈ notes [] l, p.lib = libKey (revertLib x lib))
    (h : loop fuel x (n + 1) (n + 1) i s result = some (s', l', res)) : ∃ e ∈ l', e.2 = 0 := by
  unfold loop at h
  rw [if_neg (by omega)] at h
  simp only [hb, serveAll, List.zip_nil_left, List.nil_append] at h
  rw [if_neg hr.hijack] at h
  cases hat : attempt fuel x (x.env i) s result (n + 1 - 1) with
  | none => rw [hat] at h; cases h
  | some q =>
  obtain ⟨s2, l2, res2, retry2⟩ := q
  simp only [hat, Option.map_eq_some_iff] at h
  obtain ⟨⟨s3, l3, res3⟩, hlo, hb⟩ := h
  simp only [Prod.mk.injEq] at hb
  obtain ⟨rfl, rfl, rfl⟩ := hb
  obtain ⟨s1, l1, r1, hrt, hcase⟩ := attempt_split hl hp hat
  have hin : ∃ e ∈ l1, e.2 = 0 := by
    unfold revertTool at hrt
    simp only [hr.name, hr.done, runRoutine, Bool.not_true, Bool.false_eq_true, if_false] at hrt
    cases hx : raw fuel s (.revertAll (x.env i).world (revertLib x lib)) with
    | none => simp [hx] at hrt
    | some y =>
      obtain ⟨s4, a⟩ := y
      have ha := reverts_something hI (hw.k.inv hi) he hr.idle hlen hex hx
      subst ha
      simp only [hx, Option.map_some, ne_eq, not_true_eq_false, if_false] at hrt
      cases hy : interp (x.env i).queueRevert s4 with
      | none => simp [hy] at hrt
      | some z =>
        simp only [hy, Option.some.injEq, Prod.mk.injEq] at hrt
        rw [← hrt.2.1]
        exact ⟨_, List.mem_singleton.mpr rfl, rfl⟩
  obtain ⟨e, he, h0⟩ := hin
  rcases hcase with ⟨-, -, -, -, rfl, -⟩ | ⟨-, -, l5, -, rfl⟩
  · exact ⟨e, by simp [he], h0⟩
  · exact ⟨e, by simp [he], h0⟩

theorem replacement_cons {p : Patch} {ps : List Patch} {a n : Nat} (h : replacement [p] a = some n) : replacement (p :: ps) a = some n := by
  simp only [replacement] at h ⊢
  split at h
  · exact h
  · exact absurd h (by simp)

theorem same_patch {ps : List Patch} (hnd : (ps.map fun p => p.id).Nodup) {p q : Patch} (hp : p ∈ ps) (hq : q ∈ ps) (h : p.id = q.id) : p = q := by
  induction ps with
  | nil => cases hp
  | cons r ps ih =>
    rw [List.map_cons, List.nodup_cons] at hnd
    rcases List.mem_cons.mp hp with e1 | h1
    · rcases List.mem_cons.mp hq with e2 | h2
      · rw [e1, e2]
      · exact (hnd.1 (List.mem_map.mpr ⟨q, h2, by rw [← h, e1]⟩)).elim
    · rcases List.mem_cons.mp hq with e2 | h2
      · exact (hnd.1 (List.mem_map.mpr ⟨p, h1, by rw [h, e2]⟩)).elim
      · exact ih hnd.2 h1 h2

end Verif.Many
