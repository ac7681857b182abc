import Verif.PowerSession.Spec
import Verif.Power.Invariant

/-! Supporting lemmas for `Verif.PowerSession.Props`. -/

namespace Verif.Power.Run

open Verif.Runtime hiding Good Inv area loadPatch_apply_ok
open Verif.Runtime.Spec (Patch track trackAll replacement healthy Idle patchOf libKey refAddr refSize)
open Power.Spec (callDest entryOff body inStub Image Fits)
open Verif.InsnQueue (Req Holds Event)
open Verif.InsnQueue.Spec (perform)
open Verif.Session
open Verif.Session.Spec hiding Follow
open Verif.Power.Run.Spec

variable {tm : List UInt8}

/-- The process once the writes `ws` have been made. -/
def after (s : State) (ws : List Req) : State := { s with mem := perform s.mem ws, q := { s.q with num := 0, size := 0 } }

/-- Invariant between the steps of the tool: the queue holds writes that would make the bookkeeping true, or it has been executed and
only partly reset. -/
structure K (tm : List UInt8) (m₀ : Mem) (F slot : Nat → Prop) (s : State) (ps : List Patch) : Prop where
  ver : s.q.version ≤ 1
  ex : ∃ ws, (Holds s.q ws ∨ (ws = [] ∧ s.q.size = 0 ∧ s.q.num ≠ 0)) ∧ Inv tm m₀ F slot (after s ws) ps

theorem idle_after {s} (h : Idle s) : after s [] = s := by
  obtain ⟨h1, h2, _⟩ := h
  obtain ⟨e, p, r, u, c, q, m⟩ := s
  obtain ⟨v, n, z, b⟩ := q
  simp only at h1 h2
  subst h1 h2
  rfl

theorem total_pos {ws : List Req} (hv : ∀ r ∈ ws, InsnQueue.Spec.Req.Valid r) (h : InsnQueue.total ws = 0) : ws = [] := by
  cases ws with
  | nil => rfl
  | cons r rs =>
    have := InsnQueue.insnSize_pos (hv r (by simp))
    simp only [InsnQueue.total] at h
    omega

theorem holds_idle {s : State} {ws} (hn : s.q.num = 0) (h : Holds s.q ws) : ws = [] := by
  have := h.num
  rw [hn] at this
  exact List.length_eq_zero_iff.mp this.symm

theorem K.inv {m₀ F slot s ps} (h : K tm m₀ F slot s ps) (hi : Idle s) : Inv tm m₀ F slot s ps := by
  obtain ⟨ws, hw, hinv⟩ := h.ex
  have : ws = [] := by
    rcases hw with hw | hw
    · exact holds_idle hi.num hw
    · exact hw.1
  subst this
  rwa [idle_after hi] at hinv

theorem Inv.toK {m₀ F slot s ps} (h : Inv tm m₀ F slot s ps) : K tm m₀ F slot s ps :=
  ⟨h.clean.ver, [], Or.inl h.clean.holds, by rwa [idle_after h.clean]⟩

/-- A queue that is not empty makes libpulp refuse. -/
theorem gate_full {s : State} (w : World) (h : ¬ (s.q.num = 0 ∧ s.q.size = 0)) :
    gate w s = if s.err ≠ ENONE then (s, some s.err) else ({ s with err := EINSNQ }, some EINSNQ) := by
  unfold gate
  by_cases he : s.err ≠ ENONE
  · rw [if_pos he, if_pos he]
  · rw [if_neg he, if_neg he]
    have : InsnQueue.ensureEmptiness ⟨s.q, s.err⟩ = (⟨s.q, EINSNQ⟩, 1) := by
      unfold InsnQueue.ensureEmptiness
      rw [if_pos]
      show s.q.num > 0 ∨ s.q.size > 0
      omega
    rw [this]
    simp

/-- Libpulp's functions on an empty queue: what they queue is a list of writes. -/
theorem raw_idle {m₀ F slot s ps fuel r s' a} (htl : tm.length = 44) (hI : Image m₀ F slot) (hfit : Fits F slot r)
    (hinv : Inv tm m₀ F slot s ps) (h : raw tm fuel s r = some (s', a)) :
    (∃ ws, Holds s'.q ws) ∧ s'.q.version = s.q.version ∧ s'.mem = s.mem ∧ (healthy s'.err → healthy s.err) := by
  have same : ∀ s1 : State, s1 = s → (∃ ws, Holds s1.q ws) ∧ s1.q.version = s.q.version ∧ s1.mem = s.mem ∧
      (healthy s1.err → healthy s.err) := by
    rintro s1 rfl
    exact ⟨⟨[], hinv.clean.holds⟩, rfl, rfl, id⟩
  have emit : ∀ s1 ws, Emits s s1 ws → (∃ ws, Holds s1.q ws) ∧ s1.q.version = s.q.version ∧ s1.mem = s.mem ∧
      (healthy s1.err → healthy s.err) := by
    intro s1 ws hem
    obtain ⟨ws', -, h2, -⟩ := hem.holds [] hinv.clean.holds
    refine ⟨⟨_, h2⟩, hem.ver, hem.mem, fun hh => ?_⟩
    rcases hem.err with h | h
    · rwa [h] at hh
    · rw [h] at hh; rcases hh with h | h <;> simp [EINSNQ, ENONE, EUSRBLOCKED] at h
  cases r with
  | check id =>
    simp only [raw, Option.some.injEq, Prod.mk.injEq] at h
    exact same s' h.1.symm
  | toggle =>
    simp only [raw, Option.some.injEq] at h
    have hs : s' = (toggle s).1 := by rw [h]
    subst hs
    unfold toggle
    simp only
    split
    · rename_i h; exact ⟨⟨[], hinv.clean.holds⟩, rfl, rfl, fun _ => Or.inl h⟩
    split
    · rename_i h; exact ⟨⟨[], hinv.clean.holds⟩, rfl, rfl, fun _ => Or.inr h⟩
    · exact same _ rfl
  | apply w m =>
    simp only [raw, Option.some.injEq] at h
    have hs : s' = (applyPatch tm w m s).1 := by rw [h]
    subst hs
    clear h
    unfold applyPatch
    rw [gate_clean hinv.clean]
    by_cases he : s.err ≠ ENONE
    · rw [if_pos he]; exact same s rfl
    rw [if_neg he]
    have he' : s.err = ENONE := Decidable.not_not.mp he
    cases hb : w.busy with
    | true => rw [if_pos rfl]; exact same s rfl
    | false =>
    rw [if_neg (by simp)]
    cases m with
    | error e => exact same _ rfl
    | ok m =>
    simp only
    have hg := hinv.good (Or.inl he')
    generalize hl : loadPatch tm w m s = p
    obtain ⟨s1, e⟩ := p
    simp only
    by_cases h0 : e = 0
    · subst h0
      by_cases ht : m.type = 1
      · obtain ⟨ws, a1, -⟩ := loadPatch_apply_ok htl hI hfit ht hg hl
        exact emit _ _ a1
      · by_cases ht2 : m.type = 2
        · obtain ⟨hc, rfl⟩ := loadPatch_revert hl ht2
          obtain ⟨-, ws, a1, -⟩ := revertPatch_ok htl hI hg (hg.ready) hc
          exact emit _ _ a1
        · exact absurd rfl (loadPatch_other hl ht ht2)
    · rcases loadPatch_refused hl h0 with rfl | ⟨ht, s0, s2, hu, ha, rfl⟩
      · exact same _ rfl
      · obtain ⟨f1, f2, f3, -⟩ := stateUpdate_fields hu
        have hem := applyAllUnits_area htl hI hfit ht hg f2
        rw [ha] at hem
        obtain ⟨ws, hem, -⟩ := hem.of_fields f1.symm f2.symm f3.symm rfl rfl rfl
        obtain ⟨b1, b2, b3, -⟩ := emit _ _ hem
        exact ⟨b1, b2, b3, fun _ => Or.inl he'⟩
  | revertAll w lib =>
    simp only [raw] at h
    unfold revertAll at h
    rw [gate_clean hinv.clean] at h
    by_cases he : s.err ≠ ENONE
    · simp only [if_pos he, Option.some.injEq, Prod.mk.injEq] at h
      exact same _ h.1.symm
    simp only [if_neg he] at h
    have he' : s.err = ENONE := Decidable.not_not.mp he
    cases hb : w.busy with
    | true =>
      simp only [hb, if_true, Option.some.injEq, Prod.mk.injEq] at h
      exact same _ h.1.symm
    | false =>
    simp only [hb, Bool.false_eq_true, if_false] at h
    split at h
    · simp only [Option.some.injEq, Prod.mk.injEq] at h
      exact same _ h.1.symm
    have hg := hinv.good (Or.inl he')
    cases hl : revertAllLoop tm (getBasename lib) fuel s.patches ENOTARGETLIB s with
    | none => simp [hl] at h
    | some p =>
    obtain ⟨s1, e⟩ := p
    obtain ⟨ws, a1, -⟩ := revertAllLoop_ok htl hI fuel s.patches ENOTARGETLIB s s.mem ps hg
      (hg.ready) hg.libs hg.ids s1 e hl
    simp only [hl, Option.map_some, Option.some.injEq] at h
    have : s' = s1 := by
      split at h <;> exact (Prod.mk.inj h).1.symm
    subst this
    exact emit _ _ a1

/-- The same with any queue. -/
theorem raw_K {m₀ F slot s ps fuel r s' a} (htl : tm.length = 44) (hI : Image m₀ F slot) (hfit : Fits F slot r)
    (hk : K tm m₀ F slot s ps) (h : raw tm fuel s r = some (s', a)) :
    K tm m₀ F slot s' (track ps r a) ∧ s'.mem = s.mem ∧ (healthy s'.err → healthy s.err) := by
  by_cases hi : s.q.num = 0 ∧ s.q.size = 0
  · have hinv := hk.inv ⟨hi.1, hi.2, hk.ver⟩
    obtain ⟨⟨ws, hws⟩, hv, hm, hh⟩ := raw_idle htl hI hfit hinv h
    refine ⟨⟨by rw [hv]; exact hk.ver, ws, Or.inl hws, ?_⟩, hm, hh⟩
    have hse : settle s' = after s' ws := settle_holds hws (by rw [hv]; exact hk.ver)
    rw [← hse]
    cases r with
    | apply w m =>
      simp only [raw, Option.some.injEq] at h
      have := apply_inv htl hI hfit hinv
      rw [h] at this
      exact this
    | revertAll w lib => exact revertAll_inv htl hI hinv h
    | check id =>
      simp only [raw, Option.some.injEq, Prod.mk.injEq] at h
      obtain ⟨rfl, rfl⟩ := h
      rw [settle_clean hinv.clean]
      exact hinv
    | toggle =>
      simp only [raw, Option.some.injEq] at h
      have hs : s' = (toggle s).1 := by rw [h]
      subst hs
      have := toggle_inv hinv
      rw [settle_clean this.clean]
      exact this
  · have refuse : ∀ w, ∀ s1 e, gate w s = (s1, some e) → K tm m₀ F slot s1 ps ∧ s1.mem = s.mem ∧ (healthy s1.err → healthy s.err) ∧ e ≠ 0 := by
      intro w s1 e hg
      rw [gate_full w hi] at hg
      by_cases he : s.err ≠ ENONE
      · rw [if_pos he] at hg
        obtain ⟨rfl, h2⟩ := Prod.mk.inj hg
        injection h2 with h2
        subst h2
        exact ⟨hk, rfl, id, he⟩
      · rw [if_neg he] at hg
        obtain ⟨rfl, h2⟩ := Prod.mk.inj hg
        injection h2 with h2
        subst h2
        obtain ⟨ws, hw, hinv⟩ := hk.ex
        refine ⟨⟨hk.ver, ws, hw, ⟨hinv.clean.num, hinv.clean.size, hinv.clean.ver⟩, hinv.book, hinv.frame, ?_⟩, rfl,
          fun _ => Or.inl (Decidable.not_not.mp he), by decide⟩
        rintro (h | h) <;> simp [after, EINSNQ, ENONE, EUSRBLOCKED] at h
    have hsome : ∀ w, ∃ s1 e, gate w s = (s1, some e) := by
      intro w
      rw [gate_full w hi]
      split <;> exact ⟨_, _, rfl⟩
    cases r with
    | check id =>
      simp only [raw, Option.some.injEq, Prod.mk.injEq] at h
      obtain ⟨rfl, rfl⟩ := h
      exact ⟨hk, rfl, fun h => h⟩
    | toggle =>
      simp only [raw, Option.some.injEq] at h
      have hs : s' = (toggle s).1 := by rw [h]
      subst hs
      obtain ⟨ws, hw, hinv⟩ := hk.ex
      show K tm m₀ F slot (toggle s).1 ps ∧ _
      unfold toggle
      simp only
      split
      · rename_i h
        exact ⟨⟨hk.ver, ws, hw, ⟨hinv.clean.num, hinv.clean.size, hinv.clean.ver⟩, hinv.book, hinv.frame,
          fun _ => (hinv.good (Or.inl h)).congr rfl rfl rfl⟩, rfl, fun _ => Or.inl h⟩
      split
      · rename_i h
        exact ⟨⟨hk.ver, ws, hw, ⟨hinv.clean.num, hinv.clean.size, hinv.clean.ver⟩, hinv.book, hinv.frame,
          fun _ => (hinv.good (Or.inr h)).congr rfl rfl rfl⟩, rfl, fun _ => Or.inr h⟩
      · exact ⟨hk, rfl, id⟩
    | apply w m =>
      obtain ⟨s1, e, hg⟩ := hsome w
      obtain ⟨r1, r2, r3, r4⟩ := refuse w s1 e hg
      have hs : applyPatch tm w m s = (s1, e) := by unfold applyPatch; rw [hg]
      simp only [raw, hs, Option.some.injEq, Prod.mk.injEq] at h
      obtain ⟨rfl, rfl⟩ := h
      rw [track_refused r4]
      exact ⟨r1, r2, r3⟩
    | revertAll w lib =>
      obtain ⟨s1, e, hg⟩ := hsome w
      obtain ⟨r1, r2, r3, r4⟩ := refuse w s1 e hg
      have hs : revertAll tm fuel w lib s = some (s1, e) := by unfold revertAll; rw [hg]
      simp only [raw, hs, Option.some.injEq, Prod.mk.injEq] at h
      obtain ⟨rfl, rfl⟩ := h
      rw [track_refused r4]
      exact ⟨r1, r2, r3⟩

/-! ### the queue -/

theorem foldl_asked (m : Mem) (ws : List Req) : (ws.map InsnQueue.Spec.asked).foldl Event.apply m = perform m ws := by
  induction ws generalizing m with
  | nil => rfl
  | cons r ws ih =>
    cases r with
    | print s => simpa [InsnQueue.Spec.asked, Event.apply, perform] using ih m
    | write a bs => simpa [InsnQueue.Spec.asked, Event.apply, perform] using ih (m.store a bs)

/-- Executing nothing but padding. -/
theorem interpret_zero (buf : Mem) (hb : ∀ i, buf i = 0) (size : Nat) (fault : Nat → Option Nat) (left i pc : Nat) :
    (InsnQueue.interpretFrom buf size fault left i pc).1 = [] ∧
    ((InsnQueue.interpretFrom buf size fault left i pc).2 = .ok → size = pc + 4 * left) := by
  induction left generalizing i pc with
  | zero =>
    unfold InsnQueue.interpretFrom
    refine ⟨rfl, fun h => ?_⟩
    by_cases hp : (pc : Int) = size
    · omega
    · rw [if_neg hp] at h; simp at h
  | succ n ih =>
    unfold InsnQueue.interpretFrom
    by_cases hp : (pc : Int) < 0 ∨ (InsnQueue.bufMax : Int) ≤ pc
    · have : InsnQueue.step buf pc (fault i) = .oob := by unfold InsnQueue.step; rw [if_pos hp]
      rw [this]
      exact ⟨rfl, by simp⟩
    · have : InsnQueue.step buf pc (fault i) = .next none 4 := by
        unfold InsnQueue.step
        rw [if_neg hp]
        simp [hb]
      rw [this]
      have := ih (i + 1) (pc + 4)
      rw [show (((pc + 4 : Nat) : Int)) = (pc : Int) + 4 by omega] at this
      simp only
      obtain ⟨h1, h2⟩ := this
      refine ⟨by simp [h1], fun h => ?_⟩
      have := h2 h
      omega

theorem Inv.follow {m₀ F slot s ps} (htl : tm.length = 44) (hI : Image m₀ F slot) (h : Inv tm m₀ F slot s ps) (hh : healthy s.err) :
    Follow tm m₀ F s.mem ps := fun f hf => (h.good hh).calls htl hI.range f hf

/-- What executing the queue does, with any failures but of writes. -/
theorem interp_K {m₀ F slot s ps f s' e} (htl : tm.length = 44) (hI : Image m₀ F slot) (hk : K tm m₀ F slot s ps) (hf : QFault.Ok f)
    (h : interp f s = some (s', e)) :
    K tm m₀ F slot s' ps ∧ s'.err = s.err ∧ (s'.mem = s.mem ∨ (healthy s.err → Follow tm m₀ F s'.mem ps)) ∧
    (f.found = true → e ≠ EOLDLIBPULP) ∧ (e = 0 → Idle s') := by
  have keep : ∀ e' : Nat, e' ≠ 0 → (f.found = true → e' ≠ EOLDLIBPULP) → (s, e') = (s', e) →
      K tm m₀ F slot s' ps ∧ s'.err = s.err ∧ (s'.mem = s.mem ∨ (healthy s.err → Follow tm m₀ F s'.mem ps)) ∧
      (f.found = true → e ≠ EOLDLIBPULP) ∧ (e = 0 → Idle s') := by
    intro e' h1 h2 h3
    obtain ⟨rfl, rfl⟩ := Prod.mk.inj h3
    exact ⟨hk, rfl, Or.inl rfl, h2, fun h => absurd h h1⟩
  unfold interp at h
  by_cases h1 : (!f.found) = true
  · rw [if_pos h1, Option.some.injEq] at h
    exact keep _ (by decide) (fun hc => by simp [hc] at h1) h
  rw [if_neg h1] at h
  by_cases h2 : (!f.header) = true
  · rw [if_pos h2, Option.some.injEq] at h
    exact keep _ (by decide) (fun _ => by decide) h
  rw [if_neg h2] at h
  simp only at h
  obtain ⟨ws, hw, hinv⟩ := hk.ex
  have hwr : f.write = fun _ => none := funext hf.1
  rw [hwr] at h
  rcases hw with hw | ⟨rfl, hz, hn⟩
  · obtain ⟨q', hq, hq'⟩ := InsnQueue.fetch_holds hw hk.ver
    rw [hq] at h
    simp only [ne_eq, not_true_eq_false, if_false] at h
    split at h
    · rename_i hb
      obtain ⟨b, hb'⟩ := Option.isSome_iff_exists.mp hb.2
      have := hf.2 b hb'
      rw [Option.some.injEq, hb'] at h
      refine keep b this.1 (fun _ => ?_) h
      intro hc
      rw [hc] at this
      simp [EOLDLIBPULP] at this
    rw [InsnQueue.interpret_holds hq', foldl_asked] at h
    simp only at h
    have hfol : healthy s.err → Follow tm m₀ F (perform s.mem ws) ps := fun hh => Inv.follow htl hI hinv hh
    cases hr : f.reset with
    | none =>
      simp only [hr, Option.some.injEq, Prod.mk.injEq] at h
      obtain ⟨rfl, rfl⟩ := h
      exact ⟨Inv.toK hinv, rfl, Or.inr hfol, fun _ => by decide, fun _ => ⟨rfl, rfl, hk.ver⟩⟩
    | some b =>
      cases b with
      | false =>
        simp only [hr, Option.some.injEq, Prod.mk.injEq] at h
        obtain ⟨rfl, rfl⟩ := h
        refine ⟨⟨hk.ver, ws, Or.inl hw, ?_⟩, rfl, Or.inr hfol, fun _ => by decide, fun h => by simp [EINSNQ] at h⟩
        have : after { s with mem := perform s.mem ws } ws = after s ws := by
          unfold after
          simp only
          rw [InsnQueue.perform_again (m := s.mem) (fun i hi => InsnQueue.perform_out hi)]
        rw [this]
        exact hinv
      | true =>
        simp only [hr, Option.some.injEq, Prod.mk.injEq] at h
        obtain ⟨rfl, rfl⟩ := h
        refine ⟨⟨hk.ver, [], ?_, hinv⟩, rfl, Or.inr hfol, fun _ => by decide, fun h => by simp [EINSNQ] at h⟩
        by_cases hn : s.q.num = 0
        · exact Or.inl (holds_empty hn rfl)
        · exact Or.inr ⟨rfl, rfl, hn⟩
  · have hfe : InsnQueue.fetch s.q = ({ s.q with buf := fun _ => 0 }, ENONE) := by
      unfold InsnQueue.fetch
      rw [if_neg (by have := hk.ver; simp only [InsnQueue.currVersion]; omega), if_pos hz]
    rw [hfe] at h
    simp only [ne_eq, not_true_eq_false, if_false, hz, false_and] at h
    obtain ⟨z1, z2⟩ := interpret_zero (fun _ => 0) (fun _ => rfl) s.q.size (fun _ => none) s.q.num 0 0
    have hI' : InsnQueue.interpret { s.q with buf := fun _ => 0 } (fun _ => none) =
        InsnQueue.interpretFrom (fun _ => 0) s.q.size (fun _ => none) s.q.num 0 (0 : Nat) := rfl
    simp only [hz] at z1 z2 hI'
    rw [hI'] at h
    rw [z1] at h
    cases hv : (InsnQueue.interpretFrom (fun _ => 0) 0 (fun _ => none) s.q.num 0 ((0 : Nat) : Int)).2 with
    | ok => have := z2 hv; omega
    | oob => rw [hv] at h; simp at h
    | einsnq =>
      rw [hv] at h
      simp only [List.foldl_nil, Option.some.injEq] at h
      exact keep _ (by decide) (fun _ => by decide) h

/-- The tool of another user. -/
theorem settle_K {m₀ F slot s ps} (htl : tm.length = 44) (hI : Image m₀ F slot) (hk : K tm m₀ F slot s ps) :
    K tm m₀ F slot (settle s) ps ∧ (settle s).err = s.err ∧
    ((settle s).mem = s.mem ∨ (healthy s.err → Follow tm m₀ F (settle s).mem ps)) := by
  obtain ⟨ws, hw, hinv⟩ := hk.ex
  rcases hw with hw | ⟨rfl, hz, hn⟩
  · have : settle s = after s ws := settle_holds hw hk.ver
    rw [this]
    exact ⟨Inv.toK hinv, rfl, Or.inr fun hh => Inv.follow htl hI hinv hh⟩
  · have hfe : InsnQueue.fetch s.q = ({ s.q with buf := fun _ => 0 }, ENONE) := by
      unfold InsnQueue.fetch
      rw [if_neg (by have := hk.ver; simp only [InsnQueue.currVersion]; omega), if_pos hz]
    obtain ⟨z1, z2⟩ := interpret_zero (fun _ => 0) (fun _ => rfl) s.q.size (fun _ => none) s.q.num 0 0
    have hI' : InsnQueue.interpret { s.q with buf := fun _ => 0 } (fun _ => none) =
        InsnQueue.interpretFrom (fun _ => 0) s.q.size (fun _ => none) s.q.num 0 (0 : Nat) := rfl
    have ht : (InsnQueue.toolRun s.q (fun _ => none)).1 = [] := by
      unfold InsnQueue.toolRun
      rw [hfe]
      simp only [ne_eq, not_true_eq_false, if_false]
      rw [hI']
      generalize hx : InsnQueue.interpretFrom (fun _ => 0) s.q.size (fun _ => none) s.q.num 0 ((0 : Nat) : Int) = x at z1 z2 ⊢
      obtain ⟨evs, v⟩ := x
      simp only at z1 z2
      subst z1
      cases v with
      | ok => have := z2 rfl; omega
      | oob => rfl
      | einsnq => rfl
    have : settle s = s := by
      unfold settle
      rw [ht]
      rfl
    rw [this]
    exact ⟨hk, rfl, Or.inl rfl⟩

/-! ### runs -/

theorem notes_append (ps l l') : notes ps (l ++ l') = notes (notes ps l) l' := by simp [notes]

/-- Invariant along the log. -/
structure W (tm : List UInt8) (m₀ : Mem) (F slot : Nat → Prop) (s : State) (l : Log) : Prop where
  k : K tm m₀ F slot s (notes [] l)
  seen : healthy s.err → ∃ l₁, l₁ <+: l ∧ Follow tm m₀ F s.mem (notes [] l₁)

theorem W.raw {m₀ F slot s l fuel r s' a} (htl : tm.length = 44) (hI : Image m₀ F slot) (hfit : Fits F slot r)
    (hw : W tm m₀ F slot s l) (h : raw tm fuel s r = some (s', a)) : W tm m₀ F slot s' (l ++ [(r, a)]) := by
  obtain ⟨h1, h2, h3⟩ := raw_K htl hI hfit hw.k h
  refine ⟨?_, fun hh => ?_⟩
  · rw [notes_append]; exact h1
  · obtain ⟨l₁, hl, hf⟩ := hw.seen (h3 hh)
    exact ⟨l₁, hl.trans (List.prefix_append _ _), by rw [h2]; exact hf⟩

theorem W.step {m₀ F slot s l s'} (hw : W tm m₀ F slot s l) (h1 : K tm m₀ F slot s' (notes [] l)) (h2 : s'.err = s.err)
    (h3 : s'.mem = s.mem ∨ (healthy s.err → Follow tm m₀ F s'.mem (notes [] l))) : W tm m₀ F slot s' l := by
  refine ⟨h1, fun hh => ?_⟩
  rw [h2] at hh
  rcases h3 with h | h
  · rw [h]; exact hw.seen hh
  · exact ⟨l, List.prefix_rfl, h hh⟩

theorem W.interp {m₀ F slot s l f s' e} (htl : tm.length = 44) (hI : Image m₀ F slot) (hw : W tm m₀ F slot s l) (hf : QFault.Ok f)
    (h : interp f s = some (s', e)) : W tm m₀ F slot s' l := by
  obtain ⟨h1, h2, h3, -⟩ := interp_K htl hI hw.k hf h
  exact hw.step h1 h2 h3

theorem W.settle {m₀ F slot s l} (htl : tm.length = 44) (hI : Image m₀ F slot) (hw : W tm m₀ F slot s l) : W tm m₀ F slot (settle s) l := by
  obtain ⟨h1, h2, h3⟩ := settle_K htl hI hw.k
  exact hw.step h1 h2 h3

theorem W.serve {m₀ F slot s l fuel r s' a} (htl : tm.length = 44) (hI : Image m₀ F slot) (hfit : Fits F slot r)
    (hw : W tm m₀ F slot s l) (h : serve tm fuel s r = some (s', a)) : W tm m₀ F slot s' (l ++ [(r, a)]) := by
  cases r with
  | apply w m =>
    simp only [Power.serve, Option.some.injEq, Prod.mk.injEq] at h
    obtain ⟨rfl, rfl⟩ := h
    exact (hw.raw (fuel := fuel) htl hI hfit rfl).settle htl hI
  | revertAll w lib =>
    simp only [Power.serve] at h
    cases hr : revertAll tm fuel w lib s with
    | none => simp [hr] at h
    | some p =>
      simp only [hr, Option.map_some, Option.some.injEq, Prod.mk.injEq] at h
      obtain ⟨rfl, rfl⟩ := h
      exact (hw.raw (fuel := fuel) (s' := p.1) (a := p.2) htl hI hfit hr).settle htl hI
  | check id => exact hw.raw (fuel := fuel) htl hI hfit h
  | toggle => exact hw.raw (fuel := fuel) htl hI hfit h

theorem W.serveAll {m₀ F slot fuel} (htl : tm.length = 44) (hI : Image m₀ F slot) (reqs : List Request)
    (hfit : ∀ r ∈ reqs, Fits F slot r) (s l s' as) (hw : W tm m₀ F slot s l)
    (h : serveAll tm fuel s reqs = some (s', as)) : W tm m₀ F slot s' (l ++ reqs.zip as) := by
  induction reqs generalizing s l as with
  | nil =>
    simp only [Power.serveAll, Option.some.injEq, Prod.mk.injEq] at h
    obtain ⟨rfl, rfl⟩ := h
    simpa using hw
  | cons r rs ih =>
    simp only [Power.serveAll] at h
    cases hr : Power.serve tm fuel s r with
    | none => simp [hr] at h
    | some p =>
      obtain ⟨s1, a⟩ := p
      simp only [hr] at h
      cases hrs : Power.serveAll tm fuel s1 rs with
      | none => simp [hrs] at h
      | some q =>
        obtain ⟨s2, as'⟩ := q
        simp only [hrs, Option.map_some, Option.some.injEq, Prod.mk.injEq] at h
        obtain ⟨rfl, rfl⟩ := h
        have := ih (fun r hr => hfit r (by simp [hr])) s1 _ _ (hw.serve htl hI (hfit r (by simp)) hr) hrs
        simpa using this

theorem runRoutine_W {m₀ F slot s l fuel r run s' l' e a} (htl : tm.length = 44) (hI : Image m₀ F slot) (hfit : Fits F slot r)
    (hw : W tm m₀ F slot s l) (hr : Ran.Ok run) (h : runRoutine tm fuel s r run = some (s', l', e, a)) :
    W tm m₀ F slot s' (l ++ l') ∧ (e = 0 → l' = [(r, a)] ∧ raw tm fuel s r = some (s', a)) := by
  cases run with
  | done =>
    simp only [runRoutine, Option.map_eq_some_iff] at h
    obtain ⟨⟨s1, a1⟩, h1, h2⟩ := h
    simp only [Prod.mk.injEq] at h2
    obtain ⟨rfl, rfl, rfl, rfl⟩ := h2
    exact ⟨hw.raw htl hI hfit h1, fun _ => ⟨rfl, h1⟩⟩
  | failed e1 b =>
    have hne := hr e1 b rfl
    cases b with
    | true =>
      simp only [runRoutine, Option.map_eq_some_iff] at h
      obtain ⟨⟨s1, a1⟩, h1, h2⟩ := h
      simp only [Prod.mk.injEq] at h2
      obtain ⟨rfl, rfl, rfl, rfl⟩ := h2
      exact ⟨hw.raw htl hI hfit h1, fun h => absurd h hne⟩
    | false =>
      simp only [runRoutine, Option.some.injEq, Prod.mk.injEq] at h
      obtain ⟨rfl, rfl, rfl, rfl⟩ := h
      exact ⟨by simpa using hw, fun h => absurd h hne⟩

/-- What a run of one of the routines with the queue afterwards gives. -/
structure Res (tm : List UInt8) (m₀ : Mem) (F slot : Nat → Prop) (l : Log) (r : Request) (found : Bool) (s' : State) (l' : Log) (res : Int) : Prop where
  w : W tm m₀ F slot s' (l ++ l')
  ok : res = 0 → found = true → l' = [(r, 0)] ∧ Idle s'

theorem code_zero {q a : Nat} (h : ((if q ≠ 0 ∧ q ≠ EOLDLIBPULP then q else a : Nat) : Int) = 0) (hq : q ≠ EOLDLIBPULP) :
    q = 0 ∧ a = 0 := by
  by_cases h0 : q = 0
  · subst h0
    simp at h
    exact ⟨rfl, h⟩
  · rw [if_pos ⟨h0, hq⟩] at h
    omega

theorem error_zero {w e} {s : State} (h : (applyPatch tm w (.error e) s).2 = 0) : e = 0 := by
  unfold applyPatch gate at h
  by_cases he : s.err ≠ ENONE
  · rw [if_pos he] at h
    exact absurd h he
  rw [if_neg he] at h
  simp only at h
  split at h
  · rename_i s1 e1 hx
    simp only at h
    subst h
    split at hx
    · rename_i hr
      have h2 := (Prod.mk.inj hx).2
      unfold InsnQueue.ensureEmptiness at h2 hr
      split at h2
      · simp [EINSNQ] at h2
      · rename_i hc; rw [if_neg hc] at hr; simp at hr
    · split at hx
      · have h2 := (Prod.mk.inj hx).2; simp [EAGAIN] at h2
      · have h2 := (Prod.mk.inj hx).2; simp at h2
  · exact h

theorem revertTool_W {m₀ F slot s l fuel x t lib s' l' res} (htl : tm.length = 44) (hI : Image m₀ F slot) (ht : TryOk F slot t)
    (hw : W tm m₀ F slot s l) (h : revertTool tm fuel x t lib s = some (s', l', res)) :
    Res tm m₀ F slot l (.revertAll t.world (revertLib x lib)) t.queueRevert.found s' l' res := by
  unfold revertTool at h
  split at h
  · simp only [Option.some.injEq, Prod.mk.injEq] at h
    obtain ⟨rfl, rfl, rfl⟩ := h
    exact ⟨by simpa using hw, fun h => by simp [ETARGETHOOK] at h⟩
  cases hr : runRoutine tm fuel s (.revertAll t.world (revertLib x lib)) t.runRevert with
  | none => simp [hr] at h
  | some p =>
    obtain ⟨s1, l1, e, a⟩ := p
    obtain ⟨hw1, hl1⟩ := runRoutine_W htl hI (show Fits F slot (.revertAll _ _) from trivial) hw ht.runRevert hr
    simp only [hr] at h
    by_cases he : e ≠ 0
    · rw [if_pos he] at h
      simp only [Option.some.injEq, Prod.mk.injEq] at h
      obtain ⟨rfl, rfl, rfl⟩ := h
      exact ⟨hw1, fun h => absurd h he⟩
    rw [if_neg he] at h
    cases hi : interp t.queueRevert s1 with
    | none => simp [hi] at h
    | some y =>
      obtain ⟨s2, q⟩ := y
      simp only [hi, Option.some.injEq, Prod.mk.injEq] at h
      obtain ⟨rfl, rfl, rfl⟩ := h
      refine ⟨hw1.interp htl hI ht.queueRevert hi, fun h0 hf => ?_⟩
      obtain ⟨-, -, -, k4, k5⟩ := interp_K htl hI hw1.k ht.queueRevert hi
      have h00 : ((if q ≠ 0 ∧ q ≠ EOLDLIBPULP then q else a : Nat) : Int) = 0 := by
        rw [← h0]; split <;> rfl
      obtain ⟨rfl, rfl⟩ := code_zero h00 (k4 hf)
      exact ⟨(hl1 (Decidable.not_not.mp he)).1, k5 rfl⟩

theorem applyTool_W {m₀ F slot s l fuel t m s' l' res} (htl : tm.length = 44) (hI : Image m₀ F slot) (ht : TryOk F slot t)
    (hfit : Fits F slot (.apply t.world (.ok m)))
    (hw : W tm m₀ F slot s l) (h : applyTool tm fuel t m s = some (s', l', res)) :
    Res tm m₀ F slot l (.apply t.world (.ok m)) t.queueApply.found s' l' res := by
  unfold applyTool at h
  split at h
  · simp only [Option.some.injEq, Prod.mk.injEq] at h
    obtain ⟨rfl, rfl, rfl⟩ := h
    exact ⟨by simpa using hw, fun h => by simp [ETARGETHOOK] at h⟩
  cases hs : t.seccomp with
  | some e =>
    simp only [hs, Option.some.injEq, Prod.mk.injEq] at h
    obtain ⟨rfl, rfl, rfl⟩ := h
    exact ⟨by simpa using hw, fun h => absurd (h ▸ hs) ht.seccomp⟩
  | none =>
  simp only [hs] at h
  have hfit' : Fits F slot (applyReq t m) := by
    unfold applyReq
    cases t.noMem with
    | none => exact hfit
    | some e => trivial
  cases hr : runRoutine tm fuel s (applyReq t m) t.runApply with
  | none => simp [hr] at h
  | some p =>
    obtain ⟨s1, l1, e, a⟩ := p
    obtain ⟨hw1, hl1⟩ := runRoutine_W htl hI hfit' hw ht.runApply hr
    simp only [hr] at h
    by_cases he : e ≠ 0
    · rw [if_pos he] at h
      simp only [Option.some.injEq, Prod.mk.injEq] at h
      obtain ⟨rfl, rfl, rfl⟩ := h
      exact ⟨hw1, fun h => absurd h he⟩
    rw [if_neg he] at h
    by_cases hx : a ≠ 0 ∧ a ≠ EAGAIN ∧ a = t.rax
    · rw [if_pos hx] at h
      simp only [Option.some.injEq, Prod.mk.injEq] at h
      obtain ⟨rfl, rfl, rfl⟩ := h
      exact ⟨hw1, fun h => by simp [EHOOKNOTRUN] at h⟩
    rw [if_neg hx] at h
    cases hi : interp t.queueApply s1 with
    | none => simp [hi] at h
    | some y =>
      obtain ⟨s2, q⟩ := y
      simp only [hi, Option.some.injEq, Prod.mk.injEq] at h
      obtain ⟨rfl, rfl, rfl⟩ := h
      refine ⟨hw1.interp htl hI ht.queueApply hi, fun h0 hf => ?_⟩
      obtain ⟨-, -, -, k4, k5⟩ := interp_K htl hI hw1.k ht.queueApply hi
      have h00 : ((if q ≠ 0 ∧ q ≠ EOLDLIBPULP then q else a : Nat) : Int) = 0 := by
        rw [← h0]; split <;> rfl
      obtain ⟨rfl, rfl⟩ := code_zero h00 (k4 hf)
      obtain ⟨c1, c2⟩ := hl1 (Decidable.not_not.mp he)
      refine ⟨?_, k5 rfl⟩
      rw [c1]
      cases hn : t.noMem with
      | none => simp only [applyReq, hn]
      | some e' =>
        exfalso
        apply ht.noMem
        simp only [raw, applyReq, hn, Option.some.injEq] at c2
        rw [hn]
        have : (applyPatch tm t.world (.error e') s).2 = 0 := by rw [c2]
        rw [error_zero this]

/-- Invariant and success of a sequence of steps. -/
structure Done (tm : List UInt8) (m₀ : Mem) (F slot : Nat → Prop) (x : Session) (l : Log) (s' : State) (l' : Log) (res : Int) : Prop where
  w : W tm m₀ F slot s' (l ++ l')
  ok : res = 0 → Session.Found x → ∃ l₀ r, l' = l₀ ++ [(r, 0)] ∧ Session.Goal x r ∧ Idle s'

theorem attempt_W {m₀ F slot s l fuel x i result retry s' l' res retry'} (htl : tm.length = 44) (hI : Image m₀ F slot)
    (hx : RunOk F slot x) (hw : W tm m₀ F slot s l) (hres : result ≠ 0)
    (h : attempt tm fuel x (x.env i) s result retry = some (s', l', res, retry')) :
    Done tm m₀ F slot x l s' l' res ∧ (res = 0 → retry' = 0) := by
  have ht := hx.tries i
  unfold attempt at h
  cases hr : revertStep tm fuel x (x.env i) s result retry with
  | none => simp [hr] at h
  | some p =>
  obtain ⟨s1, l1, res1, retry1, skip⟩ := p
  simp only [hr, Option.map_eq_some_iff] at h
  obtain ⟨⟨s2, l2, res2, retry2⟩, ha, hb⟩ := h
  simp only [Prod.mk.injEq] at hb
  obtain ⟨rfl, rfl, rfl, rfl⟩ := hb
  -- reverting
  have hrev : W tm m₀ F slot s1 (l ++ l1) ∧ (skip = true → res1 ≠ 0) ∧ (x.patch = none → res1 = 0 →
      retry1 = 0 ∧ (Session.Found x → ∃ l₀ r, l1 = l₀ ++ [(r, 0)] ∧ Session.Goal x r ∧ Idle s1)) := by
    unfold revertStep at hr
    cases hl : x.lib with
    | none =>
      simp only [hl, Option.some.injEq, Prod.mk.injEq] at hr
      obtain ⟨rfl, rfl, rfl, rfl, rfl⟩ := hr
      exact ⟨by simpa using hw, by simp, fun _ h => absurd h hres⟩
    | some lib =>
      simp only [hl, Option.map_eq_some_iff] at hr
      obtain ⟨⟨s3, l3, r3⟩, hrt, hb⟩ := hr
      have hres3 := revertTool_W htl hI ht hw hrt
      simp only [Prod.mk.injEq] at hb
      obtain ⟨rfl, rfl, e3, e4, e5⟩ := hb
      refine ⟨hres3.w, fun hs => by rw [← e5] at hs; rw [← e3]; exact of_decide_eq_true hs, fun hp h0 => ?_⟩
      simp only [hp, Option.isSome_none, Bool.false_eq_true, false_and, if_false] at e3 e4
      rw [h0] at e3
      subst e3
      refine ⟨by simpa using e4.symm, fun hf => ?_⟩
      obtain ⟨c1, c2⟩ := hres3.ok rfl (hf i).1
      refine ⟨[], _, by simpa using c1, Or.inr ⟨hp, lib, i, hl, ?_⟩, c2⟩
      simp [revertLib, hp]
  obtain ⟨hw1, hskip, hown⟩ := hrev
  unfold applyStep at ha
  cases hp : x.patch with
  | none =>
    simp only [hp, Option.some.injEq, Prod.mk.injEq] at ha
    obtain ⟨rfl, rfl, rfl, rfl⟩ := ha
    refine ⟨⟨by simpa using hw1, fun h0 hf => ?_⟩, fun h0 => ?_⟩
    · simpa using (hown hp h0).2 hf
    · have := (hown hp h0).1
      simp [this]
  | some m =>
    simp only [hp] at ha
    cases skip with
    | true =>
      simp only [if_true, Option.some.injEq, Prod.mk.injEq] at ha
      obtain ⟨rfl, rfl, rfl, rfl⟩ := ha
      have := hskip rfl
      exact ⟨⟨by simpa using hw1, fun h0 => absurd h0 this⟩, fun h0 => absurd h0 this⟩
    | false =>
      simp only [Bool.false_eq_true, if_false, Option.map_eq_some_iff] at ha
      obtain ⟨⟨s3, l3, r3⟩, hat, hb⟩ := ha
      simp only [Prod.mk.injEq] at hb
      obtain ⟨rfl, rfl, rfl, rfl⟩ := hb
      have hres3 := applyTool_W htl hI ht (hx.fits m hp i) hw1 hat
      refine ⟨⟨by rw [← List.append_assoc]; exact hres3.w, fun h0 hf => ?_⟩, fun h0 => by simp [h0]⟩
      obtain ⟨c1, c2⟩ := hres3.ok h0 (hf i).2
      exact ⟨l1, _, by rw [c1], Or.inl ⟨m, i, hp, rfl⟩, c2⟩

theorem loop_W {m₀ F slot fuel x} (htl : tm.length = 44) (hI : Image m₀ F slot) (hx : RunOk F slot x) (n : Nat) :
    ∀ retry i s l result s' l' res, W tm m₀ F slot s l → result ≠ 0 →
      loop tm fuel x n retry i s result = some (s', l', res) → Done tm m₀ F slot x l s' l' res := by
  induction n with
  | zero =>
    intro retry i s l result s' l' res hw h0 h
    simp only [loop, Option.some.injEq, Prod.mk.injEq] at h
    obtain ⟨rfl, rfl, rfl⟩ := h
    exact ⟨by simpa using hw, fun h => absurd h h0⟩
  | succ n ih =>
    intro retry i s l result s' l' res hw h0 h
    unfold loop at h
    split at h
    · simp only [Option.some.injEq, Prod.mk.injEq] at h
      obtain ⟨rfl, rfl, rfl⟩ := h
      exact ⟨by simpa using hw, fun h => absurd h h0⟩
    cases hs : serveAll tm fuel s (x.env i).before with
    | none => simp [hs] at h
    | some p =>
    obtain ⟨s1, as⟩ := p
    simp only [hs] at h
    have hw1 := W.serveAll htl hI _ (hx.tries i).before s l s1 as hw hs
    split at h
    · rename_i hj
      simp only [Option.some.injEq, Prod.mk.injEq] at h
      obtain ⟨rfl, rfl, rfl⟩ := h
      exact ⟨hw1, fun h => by omega⟩
    cases ha : attempt tm fuel x (x.env i) s1 result (retry - 1) with
    | none => simp [ha] at h
    | some q =>
    obtain ⟨s2, l2, res2, retry2⟩ := q
    simp only [ha, Option.map_eq_some_iff] at h
    obtain ⟨⟨s3, l3, res3⟩, hl, hb⟩ := h
    simp only [Prod.mk.injEq] at hb
    obtain ⟨rfl, rfl, rfl⟩ := hb
    obtain ⟨hd, hretry⟩ := attempt_W htl hI hx hw1 h0 ha
    by_cases hz : res2 = 0
    · have hz2 := hretry hz
      subst hz hz2
      have hl' : some (s2, ([] : Log), (0 : Int)) = some (s3, l3, res3) := by
        rw [← hl]
        cases n with
        | zero => rfl
        | succ n => unfold loop; rw [if_pos rfl]
      simp only [Option.some.injEq, Prod.mk.injEq] at hl'
      obtain ⟨rfl, rfl, rfl⟩ := hl'
      refine ⟨by simpa using hd.w, fun _ hf => ?_⟩
      obtain ⟨l₀, r, c1, c2, c3⟩ := hd.ok rfl hf
      exact ⟨(x.env i).before.zip as ++ l₀, r, by simp [c1], c2, c3⟩
    · have hd2 := ih retry2 (i + 1) s2 _ res2 s3 l3 res3 hd.w hz hl
      refine ⟨by simpa using hd2.w, fun h1 hf => ?_⟩
      obtain ⟨l₀, r, c1, c2, c3⟩ := hd2.ok h1 hf
      exact ⟨(x.env i).before.zip as ++ l2 ++ l₀, r, by simp [c1], c2, c3⟩

theorem session_W {m₀ F slot fuel x s l s' l' res} (htl : tm.length = 44) (hI : Image m₀ F slot) (hx : RunOk F slot x)
    (hw : W tm m₀ F slot s l) (h : session tm fuel s x = some (s', l', res)) : Done tm m₀ F slot x l s' l' res :=
  loop_W htl hI hx _ _ _ s l (-1) s' l' res hw (by decide) h

theorem sessions_W {m₀ F slot fuel} (htl : tm.length = 44) (hI : Image m₀ F slot) (xs : List Session) (hx : ∀ x ∈ xs, RunOk F slot x)
    (s l s' l' rs) (hw : W tm m₀ F slot s l) (h : sessions tm fuel s xs = some (s', l', rs)) : W tm m₀ F slot s' (l ++ l') := by
  induction xs generalizing s l l' rs with
  | nil =>
    simp only [sessions, Option.some.injEq, Prod.mk.injEq] at h
    obtain ⟨rfl, rfl, rfl⟩ := h
    simpa using hw
  | cons x xs ih =>
    unfold sessions at h
    cases h1 : session tm fuel s x with
    | none => simp [h1] at h
    | some p =>
      obtain ⟨s1, l1, r1⟩ := p
      simp only [h1, Option.map_eq_some_iff] at h
      obtain ⟨⟨s2, l2, rs2⟩, h2, hb⟩ := h
      simp only [Prod.mk.injEq] at hb
      obtain ⟨rfl, rfl, rfl⟩ := hb
      have := ih (fun y hy => hx y (by simp [hy])) s1 _ l2 rs2 (session_W htl hI (hx x (by simp)) hw h1).w h2
      simpa using this

theorem init_W {m₀ F slot} (htl : tm.length = 44) (hI : Image m₀ F slot) : W tm m₀ F slot (State.init m₀) [] :=
  ⟨Inv.toK (init_inv hI), fun hh => ⟨[], List.prefix_rfl, Inv.follow htl hI (init_inv hI) hh⟩⟩

/-! ### once an internal error has been recorded -/

/-- `s'` comes after `s`: an internal error stays. -/
def Later (s s' : State) : Prop := healthy s'.err → healthy s.err

theorem raw_later {m₀ F slot s l fuel r s' a} (htl : tm.length = 44) (hI : Image m₀ F slot) (hfit : Fits F slot r)
    (hw : W tm m₀ F slot s l) (h : raw tm fuel s r = some (s', a)) : Later s s' := (raw_K htl hI hfit hw.k h).2.2

theorem interp_later {m₀ F slot s l f s' e} (htl : tm.length = 44) (hI : Image m₀ F slot) (hw : W tm m₀ F slot s l) (hf : QFault.Ok f)
    (h : interp f s = some (s', e)) : Later s s' := by
  have := (interp_K htl hI hw.k hf h).2.1
  intro hh
  rwa [this] at hh

theorem refused_same {m₀ F slot s ps fuel w m s' a} (hinv : Inv tm m₀ F slot s ps)
    (h : raw tm fuel s (.apply w m) = some (s', a)) (ha : a ≠ 0) (hh : healthy s'.err) : s' = s := by
  simp only [raw, Option.some.injEq] at h
  unfold applyPatch at h
  rw [gate_clean hinv.clean] at h
  by_cases he : s.err ≠ ENONE
  · rw [if_pos he] at h; exact (Prod.mk.inj h).1.symm
  rw [if_neg he] at h
  cases hb : w.busy with
  | true => rw [hb, if_pos rfl] at h; exact (Prod.mk.inj h).1.symm
  | false =>
    rw [hb, if_neg (by simp)] at h
    cases m with
    | error e => exact (Prod.mk.inj h).1.symm
    | ok m =>
      simp only at h
      rcases loadPatch_refused h ha with h | ⟨-, s0, s2, -, -, h⟩
      · exact h
      · rw [h] at hh
        rcases hh with h | h <;> simp [EUNKNOWN, ENONE, EUSRBLOCKED] at h

theorem accepted_idle {fuel w m s s'} (h : raw tm fuel s (.apply w m) = some (s', 0)) :
    s.err = ENONE ∧ s.q.num = 0 ∧ s.q.size = 0 := by
  simp only [raw, Option.some.injEq] at h
  by_cases hi : s.q.num = 0 ∧ s.q.size = 0
  · refine ⟨?_, hi⟩
    apply Decidable.not_not.mp
    intro he
    unfold applyPatch gate at h
    rw [if_pos he] at h
    exact he (Prod.mk.inj h).2
  · exfalso
    unfold applyPatch at h
    rw [gate_full w hi] at h
    by_cases he : s.err ≠ ENONE
    · rw [if_pos he] at h
      exact he (Prod.mk.inj h).2
    · rw [if_neg he] at h
      have := (Prod.mk.inj h).2
      simp [EINSNQ] at this

theorem Later.trans {a b c : State} (h1 : Later a b) (h2 : Later b c) : Later a c := fun h => h1 (h2 h)

theorem fits_applyReq {F slot t m} (hfit : Fits F slot (.apply t.world (.ok m))) : Fits F slot (applyReq t m) := by
  unfold applyReq
  cases t.noMem with
  | none => exact hfit
  | some e => trivial

/-- Executing the queue when nothing fails. -/
theorem interp_calm {m₀ F slot s ps} {t : Try} (hk : K tm m₀ F slot s ps) (hw : ∃ ws, Holds s.q ws) (ht : Try.Calm t) :
    ∃ s', interp t.queueApply s = some (s', 0) := by
  obtain ⟨ws, hw⟩ := hw
  unfold interp
  obtain ⟨q', hq, hq'⟩ := InsnQueue.fetch_holds hw hk.ver
  have hwr : t.queueApply.write = fun _ => none := funext ht.write
  simp only [ht.found, ht.header, ht.body, ht.reset, hq, hwr, InsnQueue.interpret_holds hq', Bool.not_true, Bool.false_eq_true, if_false,
    ne_eq, not_true_eq_false, Option.isSome_none, and_false]
  exact ⟨_, rfl⟩

theorem applyTool_calm {m₀ F slot s l fuel t m s' l' res} (htl : tm.length = 44) (hI : Image m₀ F slot) (ht : TryOk F slot t) (hc : Try.Calm t)
    (hfit : Fits F slot (.apply t.world (.ok m))) (hw : W tm m₀ F slot s l) (h : applyTool tm fuel t m s = some (s', l', res)) :
    Later s s' ∧ (Idle s → res ≠ 0 → healthy s'.err → s' = s) := by
  unfold applyTool at h
  split at h
  · simp only [Option.some.injEq, Prod.mk.injEq] at h
    obtain ⟨rfl, rfl, rfl⟩ := h
    exact ⟨fun h => h, fun _ _ _ => rfl⟩
  cases hs : t.seccomp with
  | some e =>
    simp only [hs, Option.some.injEq, Prod.mk.injEq] at h
    obtain ⟨rfl, rfl, rfl⟩ := h
    exact ⟨fun h => h, fun _ _ _ => rfl⟩
  | none =>
  simp only [hs] at h
  cases hrun : t.runApply with
  | failed e b =>
    cases b with
    | true => exact absurd hrun (hc.run e)
    | false =>
      have := ht.runApply e false hrun
      simp only [hrun, runRoutine] at h
      rw [if_pos this] at h
      simp only [Option.some.injEq, Prod.mk.injEq] at h
      obtain ⟨rfl, rfl, rfl⟩ := h
      exact ⟨fun h => h, fun _ _ _ => rfl⟩
  | done =>
    have hfit' := fits_applyReq hfit
    simp only [hrun, runRoutine] at h
    cases hr : raw tm fuel s (applyReq t m) with
    | none => simp [hr] at h
    | some p =>
    obtain ⟨s1, a⟩ := p
    have hw1 := hw.raw htl hI hfit' hr
    have hl1 := raw_later htl hI hfit' hw hr
    simp only [hr, Option.map_some, ne_eq, not_true_eq_false, if_false] at h
    split at h
    · rename_i hx
      simp only [Option.some.injEq, Prod.mk.injEq] at h
      obtain ⟨rfl, rfl, rfl⟩ := h
      exact ⟨hl1, fun hi _ hh => refused_same (hw.k.inv hi) hr hx.1 hh⟩
    · cases hi : interp t.queueApply s1 with
      | none => simp [hi] at h
      | some y =>
        obtain ⟨s2, q⟩ := y
        simp only [hi, Option.some.injEq, Prod.mk.injEq] at h
        obtain ⟨rfl, rfl, rfl⟩ := h
        have hl2 := interp_later htl hI hw1 ht.queueApply hi
        refine ⟨hl1.trans hl2, fun hid hne hh => ?_⟩
        have hinv := hw.k.inv hid
        obtain ⟨hws, -⟩ := raw_idle htl hI hfit' hinv hr
        obtain ⟨s3, h3⟩ := interp_calm hw1.k hws hc
        rw [hi] at h3
        simp only [Option.some.injEq, Prod.mk.injEq] at h3
        obtain ⟨rfl, rfl⟩ := h3
        have ha : a ≠ 0 := by
          intro hc; subst hc; simp at hne
        have := refused_same hinv hr ha (hl2 hh)
        subst this
        -- an empty queue
        have hq := hi
        unfold interp at hq
        obtain ⟨q', hq1, hq2⟩ := InsnQueue.fetch_holds hid.holds hid.ver
        have hwr : t.queueApply.write = fun _ => none := funext hc.write
        simp only [hc.found, hc.header, hc.body, hc.reset, hq1, hwr, InsnQueue.interpret_holds hq2, Bool.not_true,
          Bool.false_eq_true, if_false, ne_eq, not_true_eq_false, Option.isSome_none, and_false, Option.some.injEq, Prod.mk.injEq, and_true] at hq
        rw [← hq]
        exact idle_after hid

theorem loop_calm {m₀ F slot fuel x m} (htl : tm.length = 44) (hI : Image m₀ F slot) (hx : RunOk F slot x) (hl : x.lib = none)
    (hp : x.patch = some m) (hc : ∀ i, Try.Calm (x.env i)) (n : Nat) :
    ∀ retry i s l result s' l' res, W tm m₀ F slot s l → result ≠ 0 → loop tm fuel x n retry i s result = some (s', l', res) →
      Later s s' ∧ (Idle s → res ≠ 0 → healthy s'.err → s' = s) := by
  induction n with
  | zero =>
    intro retry i s l result s' l' res hw h0 h
    simp only [loop, Option.some.injEq, Prod.mk.injEq] at h
    obtain ⟨rfl, rfl, rfl⟩ := h
    exact ⟨fun h => h, fun _ _ _ => rfl⟩
  | succ n ih =>
    intro retry i s l result s' l' res hw h0 h
    unfold loop at h
    split at h
    · simp only [Option.some.injEq, Prod.mk.injEq] at h
      obtain ⟨rfl, rfl, rfl⟩ := h
      exact ⟨fun h => h, fun _ _ _ => rfl⟩
    simp only [(hc i).before, serveAll, List.zip_nil_left, List.nil_append] at h
    split at h
    · simp only [Option.some.injEq, Prod.mk.injEq] at h
      obtain ⟨rfl, rfl, rfl⟩ := h
      exact ⟨fun h => h, fun _ _ _ => rfl⟩
    cases ha : attempt tm fuel x (x.env i) s result (retry - 1) with
    | none => simp [ha] at h
    | some q =>
    obtain ⟨s2, l2, res2, retry2⟩ := q
    simp only [ha, Option.map_eq_some_iff] at h
    obtain ⟨⟨s3, l3, res3⟩, hlo, hb⟩ := h
    simp only [Prod.mk.injEq] at hb
    obtain ⟨rfl, rfl, rfl⟩ := hb
    obtain ⟨hd, hretry⟩ := attempt_W htl hI hx hw h0 ha
    have ha2 := ha
    simp only [attempt, revertStep, hl, applyStep, hp, Bool.false_eq_true, if_false, Option.map_eq_some_iff] at ha2
    obtain ⟨y, ⟨z, hz, hzy⟩, hy⟩ := ha2
    obtain ⟨sz, lz, rz⟩ := z
    obtain ⟨c1, c2⟩ := applyTool_calm htl hI (hx.tries i) (hc i) (hx.fits m hp i) hw hz
    subst hzy
    simp only [Prod.mk.injEq] at hy
    obtain ⟨rfl, rfl, rfl, -⟩ := hy
    by_cases hz0 : rz = 0
    · have hz2 := hretry hz0
      subst hz0 hz2
      have hl' : some (sz, ([] : Log), (0 : Int)) = some (s3, l3, res3) := by
        rw [← hlo]
        cases n with
        | zero => rfl
        | succ n => unfold loop; rw [if_pos rfl]
      simp only [Option.some.injEq, Prod.mk.injEq] at hl'
      obtain ⟨rfl, rfl, rfl⟩ := hl'
      exact ⟨c1, fun _ h => absurd rfl h⟩
    · obtain ⟨d1, d2⟩ := ih retry2 (i + 1) sz _ rz s3 l3 res3 hd.w hz0 hlo
      refine ⟨c1.trans d1, fun hi hne hh => ?_⟩
      have e := c2 hi hz0 (d1 hh)
      subst e
      exact d2 hi hne hh

/-! ### a queue that is never empty again -/

theorem applyTool_full {fuel t m s s' l' res} (hr : Ran.Ok t.runApply) (hs : t.seccomp ≠ some 0)
    (hst : s.err ≠ ENONE ∨ s.q.num ≠ 0) (h : applyTool tm fuel t m s = some (s', l', res)) : res ≠ 0 ∧ (s'.err ≠ ENONE ∨ s'.q.num ≠ 0) := by
  unfold applyTool at h
  split at h
  · simp only [Option.some.injEq, Prod.mk.injEq] at h
    obtain ⟨rfl, rfl, rfl⟩ := h
    exact ⟨by simp [ETARGETHOOK], hst⟩
  cases hs' : t.seccomp with
  | some e =>
    simp only [hs', Option.some.injEq, Prod.mk.injEq] at h
    obtain ⟨rfl, rfl, rfl⟩ := h
    exact ⟨fun h => hs (h ▸ hs'), hst⟩
  | none =>
  simp only [hs'] at h
  -- libpulp refuses, and keeps refusing
  have key : ∀ s1 a, raw tm fuel s (applyReq t m) = some (s1, a) → a ≠ 0 ∧ s1.err ≠ ENONE := by
    intro s1 a hra
    simp only [raw, applyReq, Option.some.injEq] at hra
    unfold applyPatch at hra
    by_cases he : s.err ≠ ENONE
    · unfold gate at hra
      rw [if_pos he] at hra
      obtain ⟨rfl, rfl⟩ := Prod.mk.inj hra
      exact ⟨he, he⟩
    · have hq : s.q.num ≠ 0 := by
        rcases hst with h | h
        · exact absurd h he
        · exact h
      rw [gate_full _ (fun h => hq h.1), if_neg he] at hra
      obtain ⟨rfl, rfl⟩ := Prod.mk.inj hra
      exact ⟨by decide, by simp [EINSNQ, ENONE]⟩
  cases hrun : t.runApply with
  | failed e b =>
    have hne := hr e b hrun
    cases b with
    | false =>
      simp only [hrun, runRoutine] at h
      rw [if_pos hne] at h
      simp only [Option.some.injEq, Prod.mk.injEq] at h
      obtain ⟨rfl, rfl, rfl⟩ := h
      exact ⟨hne, hst⟩
    | true =>
      simp only [hrun, runRoutine] at h
      cases hra : raw tm fuel s (applyReq t m) with
      | none => simp [hra] at h
      | some p =>
        obtain ⟨s1, a⟩ := p
        simp only [hra, Option.map_some] at h
        rw [if_pos hne] at h
        simp only [Option.some.injEq, Prod.mk.injEq] at h
        obtain ⟨rfl, rfl, rfl⟩ := h
        exact ⟨hne, Or.inl (key _ _ hra).2⟩
  | done =>
    simp only [hrun, runRoutine] at h
    cases hra : raw tm fuel s (applyReq t m) with
    | none => simp [hra] at h
    | some p =>
    obtain ⟨s1, a⟩ := p
    obtain ⟨ka, ke⟩ := key _ _ hra
    simp only [hra, Option.map_some, ne_eq, not_true_eq_false, if_false] at h
    split at h
    · simp only [Option.some.injEq, Prod.mk.injEq] at h
      obtain ⟨rfl, rfl, rfl⟩ := h
      exact ⟨by simp [EHOOKNOTRUN], Or.inl ke⟩
    · cases hi : interp t.queueApply s1 with
      | none => simp [hi] at h
      | some y =>
        obtain ⟨s2, q⟩ := y
        simp only [hi, Option.some.injEq, Prod.mk.injEq] at h
        obtain ⟨rfl, rfl, rfl⟩ := h
        refine ⟨?_, Or.inl ?_⟩
        · split
          · rename_i hq; exact fun h => hq.1 (by omega)
          · exact fun h => ka (by omega)
        · have : s2.err = s1.err := by
            unfold interp at hi
            simp only at hi
            repeat' split at hi
            all_goals first
              | (simp only [Option.some.injEq, Prod.mk.injEq] at hi; obtain ⟨rfl, -⟩ := hi; rfl)
              | simp at hi
          rw [this]
          exact ke

theorem loop_full {fuel x m} (hl : x.lib = none) (hp : x.patch = some m) (hb : ∀ i, (x.env i).before = [])
    (hr : ∀ i, Ran.Ok (x.env i).runApply) (hs : ∀ i, (x.env i).seccomp ≠ some 0) (n : Nat) :
    ∀ retry i s result s' l' res, (s.err ≠ ENONE ∨ s.q.num ≠ 0) → result ≠ 0 → loop tm fuel x n retry i s result = some (s', l', res) →
      res ≠ 0 ∧ (s'.err ≠ ENONE ∨ s'.q.num ≠ 0) := by
  induction n with
  | zero =>
    intro retry i s result s' l' res hst h0 h
    simp only [loop, Option.some.injEq, Prod.mk.injEq] at h
    obtain ⟨rfl, rfl, rfl⟩ := h
    exact ⟨h0, hst⟩
  | succ n ih =>
    intro retry i s result s' l' res hst h0 h
    unfold loop at h
    split at h
    · simp only [Option.some.injEq, Prod.mk.injEq] at h
      obtain ⟨rfl, rfl, rfl⟩ := h
      exact ⟨h0, hst⟩
    simp only [hb i, serveAll, List.zip_nil_left, List.nil_append] at h
    split at h
    · simp only [Option.some.injEq, Prod.mk.injEq] at h
      obtain ⟨rfl, rfl, rfl⟩ := h
      exact ⟨by omega, hst⟩
    cases ha : attempt tm fuel x (x.env i) s result (retry - 1) with
    | none => simp [ha] at h
    | some q =>
    obtain ⟨s2, l2, res2, retry2⟩ := q
    simp only [ha, Option.map_eq_some_iff] at h
    obtain ⟨⟨s3, l3, res3⟩, hlo, hb⟩ := h
    simp only [Prod.mk.injEq] at hb
    obtain ⟨rfl, rfl, rfl⟩ := hb
    simp only [attempt, revertStep, hl, applyStep, hp, Bool.false_eq_true, if_false, Option.map_eq_some_iff] at ha
    obtain ⟨y, ⟨z, hz, hzy⟩, hy⟩ := ha
    obtain ⟨sz, lz, rz⟩ := z
    obtain ⟨c1, c2⟩ := applyTool_full (hr i) (hs i) hst hz
    subst hzy
    simp only [Prod.mk.injEq] at hy
    obtain ⟨rfl, rfl, rfl, -⟩ := hy
    exact ih retry2 (i + 1) sz rz s3 l3 res3 c2 c1 hlo

theorem interp_unreset {f s s' e} (h : interp f s = some (s', e)) (hr : f.reset.isSome) (hn : s.q.num ≠ 0) : s'.q.num ≠ 0 := by
  unfold interp at h
  obtain ⟨b, hb⟩ := Option.isSome_iff_exists.mp hr
  rw [hb] at h
  simp only at h
  cases b <;>
  · repeat' split at h
    all_goals first
      | (simp only [Option.some.injEq, Prod.mk.injEq] at h; obtain ⟨rfl, -⟩ := h; exact hn)
      | (simp at h; done)
      | (simp_all; done)

end Verif.Power.Run
