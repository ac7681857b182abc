import Verif.PowerCrowd.Spec
import Verif.PowerSession.Lemmas
import Verif.Crowd.Lemmas

/-! Supporting lemmas for `Verif.PowerCrowd.Props`. -/

namespace Verif.Power.Throng

open Verif.Runtime (State Request)
open Verif.Runtime.Spec (Patch track trackAll replacement healthy)
open Power.Spec (callDest entryOff body Image Fits)
open Verif.Session (QFault Log)
open Verif.Session.Spec hiding Follow
open Verif.Power.Run (W)
open Verif.Power.Run.Spec (Follow)
open Verif.Crowd (Act Phase Conf upd start upd_self upd_ne upd_eq Phase.In Held Held.one upd_In Held.set held_start Conf.Running)

variable {tm : List UInt8}

theorem held_step {fuel main ok c d} (hi : Held main c) (h : Step tm fuel main ok c d) : Held main d := by
  cases h with
  | spawn u t hu hr ht hn =>
    refine ⟨.inr hi.main, fun i hk v hv => ?_⟩
    have := hi.all i hk u hu
    rw [hr] at this; cases this
  | exit u hu hr hm => exact ⟨⟨fun e => hm e.symm, hi.main⟩, fun i hk v hv => hi.all i hk v hv.2⟩
  | begin i hp => exact hi.set i .scan (fun h => h.elim)
  | attach i t hp ha hn =>
    refine ⟨hi.main, fun j hk v hv => ?_⟩
    have := hi.all j hk t ha
    rw [hn] at this; cases this
  | enter i hp hall => exact hi.set i .inside (fun _ => hall)
  | act i a hp hok => exact hi.set i _ (fun _ => hi.all i (by rw [hp]; trivial))
  | mid i s a s' hp => exact ⟨hi.main, hi.all⟩
  | done i s a s' l hp hr =>
    have := hi.set i .inside (fun _ => hi.all i (by rw [hp]; trivial))
    exact ⟨this.main, this.all⟩
  | leave i hp => exact hi.set i .release (fun h => h.elim)
  | detach i t hp ht =>
    refine ⟨hi.main, fun j hk v hv => ?_⟩
    show upd c.tracer t none v = some j
    have hk : (c.phase j).In := hk
    have hv' := hi.all j hk v hv
    rw [upd_ne _ _ (fun e => ?_)]
    · exact hv'
    · rw [e, ht] at hv'
      cases hv'
      rw [hp] at hk; exact hk
  | home i hp => exact hi.set i .out (fun h => h.elim)
  | die i hc =>
    refine ⟨hi.main, fun j hk v hv => ?_⟩
    rcases upd_In hk with ⟨_, e⟩ | ⟨hn, e⟩
    · exact e.elim
    · have := hi.all j e v hv
      show (if c.tracer v = some i then none else c.tracer v) = some j
      rw [this, if_neg (fun e => hn (Option.some.inj e))]

theorem held_steps {fuel main ok c d} (hi : Held main c) (h : Steps tm fuel main ok c d) : Held main d := by
  induction h with
  | refl => exact hi
  | tail _ h ih => exact held_step ih h

/-- The process is as the finished actions left it, or in the middle of one that began so. -/
structure G (tm : List UInt8) (m₀ : Mem) (F slot : Nat → Prop) (c : Conf) : Prop where
  calm : (∀ i s a, c.phase i ≠ .busy s a) → W tm m₀ F slot c.s c.log
  busy : ∀ i s a, c.phase i = .busy s a → W tm m₀ F slot s c.log ∧ ActOk F slot a

/-- Changing the phase of a tool that is not busy, to one that is not. -/
theorem G.set {m₀ F slot c} (h : G tm m₀ F slot c) (i : Nat) (p : Phase) (h1 : ∀ s a, c.phase i ≠ .busy s a) (h2 : ∀ s a, p ≠ .busy s a)
    {tr : Nat → Option Nat} : G tm m₀ F slot { c with phase := upd c.phase i p, tracer := tr } := by
  refine ⟨fun hn => h.calm (fun j s a hb => hn j s a ?_), fun j s a hb => ?_⟩
  · show upd c.phase i p j = _
    rw [upd_ne _ _ (fun e => ?_)]
    · exact hb
    · rw [e] at hb; exact h1 s a hb
  · rcases upd_eq hb with ⟨_, e⟩ | ⟨_, e⟩
    · exact absurd e (h2 s a)
    · exact h.busy j s a e

theorem run_W {m₀ F slot fuel a s s' l l'} (htl : tm.length = 44) (hI : Image m₀ F slot) (hw : W tm m₀ F slot s l) (ha : ActOk F slot a)
    (h : actRun tm fuel s a = some (s', l')) : W tm m₀ F slot s' (l ++ l') := by
  cases a with
  | ask r =>
    simp only [actRun, Option.map_eq_some_iff] at h
    obtain ⟨⟨t, b⟩, h1, h2⟩ := h
    simp only [Prod.mk.injEq] at h2
    obtain ⟨rfl, rfl⟩ := h2
    exact hw.raw htl hI ha h1
  | queue f =>
    simp only [actRun, Option.map_eq_some_iff] at h
    obtain ⟨⟨t, b⟩, h1, h2⟩ := h
    simp only [Prod.mk.injEq] at h2
    obtain ⟨rfl, rfl⟩ := h2
    rw [List.append_nil]
    exact hw.interp htl hI ha h1

theorem G_step {m₀ F slot fuel main c d} (htl : tm.length = 44) (hI : Image m₀ F slot) (hh : Held main c) (h : G tm m₀ F slot c)
    (hs : Step tm fuel main (ActOk F slot) c d) : G tm m₀ F slot d := by
  cases hs with
  | spawn u t hu hr ht hn => exact ⟨h.calm, h.busy⟩
  | exit u hu hr hm => exact ⟨h.calm, h.busy⟩
  | begin i hp => exact h.set i .scan (by rw [hp]; nofun) nofun
  | attach i t hp ha hn => exact ⟨h.calm, h.busy⟩
  | enter i hp hall => exact h.set i .inside (by rw [hp]; nofun) nofun
  | act i a hp hok =>
    have hq : ∀ j s b, c.phase j ≠ .busy s b := by
      intro j s b hb
      have := hh.one (i := i) (j := j) (by rw [hp]; trivial) (by rw [hb]; trivial)
      rw [← this, hp] at hb; cases hb
    refine ⟨fun hn => absurd (upd_self ..) (hn i c.s a), fun j s b hb => ?_⟩
    rcases upd_eq hb with ⟨e, e'⟩ | ⟨_, e⟩
    · cases e'; exact ⟨h.calm hq, hok⟩
    · exact absurd e (hq j s b)
  | mid i s a s' hp => exact ⟨fun hn => absurd hp (hn i s a), h.busy⟩
  | done i s a s' l hp hr =>
    obtain ⟨hw, ha⟩ := h.busy i s a hp
    refine ⟨fun _ => run_W htl hI hw ha hr, fun j t b hb => ?_⟩
    rcases upd_eq hb with ⟨_, e⟩ | ⟨hne, e⟩
    · cases e
    · exact absurd (hh.one (by rw [e]; trivial) (by rw [hp]; trivial)) hne
  | leave i hp => exact h.set i .release (fun s a hb => by rcases hp with hp | hp <;> rw [hp] at hb <;> cases hb) nofun
  | detach i t hp ht => exact ⟨h.calm, h.busy⟩
  | home i hp => exact h.set i .out (by rw [hp]; nofun) nofun
  | die i hc => exact h.set i .out hc nofun

theorem G_steps {m₀ F slot fuel main alive c} (htl : tm.length = 44) (hI : Image m₀ F slot) (hm : alive main)
    (h : Steps tm fuel main (ActOk F slot) (start (State.init m₀) alive) c) : G tm m₀ F slot c := by
  induction h with
  | refl => exact ⟨fun _ => Run.init_W htl hI, fun _ _ _ hb => by simp [start] at hb⟩
  | tail h h' ih => exact G_step htl hI (held_steps (held_start hm) h) ih h'

end Verif.Power.Throng
