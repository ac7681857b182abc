import Verif.Crowd.Spec
import Verif.Session.Lemmas

namespace Verif.Crowd

open Verif.Runtime (State Request)
open Verif.Runtime.Spec
open Verif.Session (QFault Log W)
open Verif.Session.Spec

theorem upd_self {α : Type} (f : Nat → α) (k : Nat) (v : α) : upd f k v k = v := by simp [upd]

theorem upd_ne {α : Type} (f : Nat → α) {i k : Nat} (v : α) (h : i ≠ k) : upd f k v i = f i := by simp [upd, h]

theorem upd_eq {f : Nat → Phase} {i j : Nat} {p x : Phase} (h : upd f j p i = x) : (i = j ∧ p = x) ∨ (i ≠ j ∧ f i = x) := by
  by_cases e : i = j
  · subst e; rw [upd_self] at h; exact .inl ⟨rfl, h⟩
  · rw [upd_ne _ _ e] at h; exact .inr ⟨e, h⟩

/-- The tool has all threads. -/
def Phase.In : Phase → Prop
  | .inside => True
  | .busy _ _ => True
  | _ => False

structure Held (main : Nat) (c : Conf) : Prop where
  main : c.alive main
  all : ∀ i, (c.phase i).In → ∀ t, c.alive t → c.tracer t = some i

theorem Held.one {main c} (h : Held main c) {i j} (hi : (c.phase i).In) (hj : (c.phase j).In) : i = j := by
  have a := h.all i hi main h.main
  have b := h.all j hj main h.main
  rw [a] at b
  exact Option.some.inj b

theorem upd_In {f : Nat → Phase} {i j : Nat} {p : Phase} (h : (upd f j p i).In) : (i = j ∧ p.In) ∨ (i ≠ j ∧ (f i).In) := by
  by_cases e : i = j
  · subst e; rw [upd_self] at h; exact .inl ⟨rfl, h⟩
  · rw [upd_ne _ _ e] at h; exact .inr ⟨e, h⟩

/-- A phase without threads after the change. -/
theorem Held.set {main c} (h : Held main c) (i : Nat) (p : Phase) (hp : p.In → ∀ t, c.alive t → c.tracer t = some i) :
    Held main { c with phase := upd c.phase i p } := by
  refine ⟨h.main, fun j hj t ht => ?_⟩
  rcases upd_In hj with ⟨e, e'⟩ | ⟨_, e⟩
  · rw [e]; exact hp e' t ht
  · exact h.all j e t ht

theorem held_step {fuel main ok c d} (hi : Held main c) (h : Step fuel main ok c d) : Held main d := by
  cases h with
  | spawn u t hu hr ht hn =>
    refine ⟨.inr hi.main, fun i hk v hv => ?_⟩
    have := hi.all i hk u hu
    rw [hr] at this; cases this
  | exit u hu hr hm => exact ⟨⟨fun e => hm e.symm, hi.main⟩, fun i hk v hv => hi.all i hk v hv.2⟩
  | begin i hp => exact hi.set i .scan (fun h => h.elim)
  | attach i t hp ha hn =>
    refine ⟨hi.main, fun j hk v hv => ?_⟩
    have := hi.all j hk t ha
    rw [hn] at this; cases this
  | enter i hp hall => exact hi.set i .inside (fun _ => hall)
  | act i a hp hok => exact hi.set i _ (fun _ => hi.all i (by rw [hp]; trivial))
  | mid i s a s' hp => exact ⟨hi.main, hi.all⟩
  | done i s a s' l hp hr =>
    have := hi.set i .inside (fun _ => hi.all i (by rw [hp]; trivial))
    exact ⟨this.main, this.all⟩
  | leave i hp => exact hi.set i .release (fun h => h.elim)
  | detach i t hp ht =>
    refine ⟨hi.main, fun j hk v hv => ?_⟩
    show upd c.tracer t none v = some j
    have hk : (c.phase j).In := hk
    have hv' := hi.all j hk v hv
    rw [upd_ne _ _ (fun e => ?_)]
    · exact hv'
    · rw [e, ht] at hv'
      cases hv'
      rw [hp] at hk; exact hk
  | home i hp => exact hi.set i .out (fun h => h.elim)
  | die i hc =>
    refine ⟨hi.main, fun j hk v hv => ?_⟩
    rcases upd_In hk with ⟨_, e⟩ | ⟨hn, e⟩
    · exact e.elim
    · have := hi.all j e v hv
      show (if c.tracer v = some i then none else c.tracer v) = some j
      rw [this, if_neg (fun e => hn (Option.some.inj e))]

theorem held_start {main s alive} (h : alive main) : Held main (start s alive) := ⟨h, fun _ hk => hk.elim⟩

theorem held_steps {fuel main ok c d} (hi : Held main c) (h : Steps fuel main ok c d) : Held main d := by
  induction h with
  | refl => exact hi
  | tail _ h ih => exact held_step ih h

/-- The process is as the finished actions left it, or in the middle of one that began so. -/
structure G (m₀ : Mem) (F slot : Nat → Prop) (c : Conf) : Prop where
  calm : (∀ i s a, c.phase i ≠ .busy s a) → W m₀ F slot c.s c.log
  busy : ∀ i s a, c.phase i = .busy s a → W m₀ F slot s c.log ∧ a.Ok m₀ F slot

/-- Changing the phase of a tool that is not busy, to one that is not. -/
theorem G.set {m₀ F slot c} (h : G m₀ F slot c) (i : Nat) (p : Phase) (h1 : ∀ s a, c.phase i ≠ .busy s a) (h2 : ∀ s a, p ≠ .busy s a)
    {tr : Nat → Option Nat} : G m₀ F slot { c with phase := upd c.phase i p, tracer := tr } := by
  refine ⟨fun hn => h.calm (fun j s a hb => hn j s a ?_), fun j s a hb => ?_⟩
  · show upd c.phase i p j = _
    rw [upd_ne _ _ (fun e => ?_)]
    · exact hb
    · rw [e] at hb; exact h1 s a hb
  · rcases upd_eq hb with ⟨_, e⟩ | ⟨_, e⟩
    · exact absurd e (h2 s a)
    · exact h.busy j s a e

theorem run_W {m₀ F slot fuel a s s' l l'} (hI : Image m₀ F slot) (hw : W m₀ F slot s l) (ha : Act.Ok m₀ F slot a)
    (h : a.run fuel s = some (s', l')) : W m₀ F slot s' (l ++ l') := by
  cases a with
  | ask r =>
    simp only [Act.run, Option.map_eq_some_iff] at h
    obtain ⟨⟨t, b⟩, h1, h2⟩ := h
    simp only [Prod.mk.injEq] at h2
    obtain ⟨rfl, rfl⟩ := h2
    exact hw.raw hI ha h1
  | queue f =>
    simp only [Act.run, Option.map_eq_some_iff] at h
    obtain ⟨⟨t, b⟩, h1, h2⟩ := h
    simp only [Prod.mk.injEq] at h2
    obtain ⟨rfl, rfl⟩ := h2
    rw [List.append_nil]
    exact hw.interp hI ha h1

theorem G_step {m₀ F slot fuel main c d} (hI : Image m₀ F slot) (hh : Held main c) (h : G m₀ F slot c)
    (hs : Step fuel main (Act.Ok m₀ F slot) c d) : G m₀ F slot d := by
  cases hs with
  | spawn u t hu hr ht hn => exact ⟨h.calm, h.busy⟩
  | exit u hu hr hm => exact ⟨h.calm, h.busy⟩
  | begin i hp => exact h.set i .scan (by rw [hp]; nofun) nofun
  | attach i t hp ha hn => exact ⟨h.calm, h.busy⟩
  | enter i hp hall => exact h.set i .inside (by rw [hp]; nofun) nofun
  | act i a hp hok =>
    have hq : ∀ j s b, c.phase j ≠ .busy s b := by
      intro j s b hb
      have := hh.one (i := i) (j := j) (by rw [hp]; trivial) (by rw [hb]; trivial)
      rw [← this, hp] at hb; cases hb
    refine ⟨fun hn => absurd (upd_self ..) (hn i c.s a), fun j s b hb => ?_⟩
    rcases upd_eq hb with ⟨e, e'⟩ | ⟨_, e⟩
    · cases e'; exact ⟨h.calm hq, hok⟩
    · exact absurd e (hq j s b)
  | mid i s a s' hp => exact ⟨fun hn => absurd hp (hn i s a), h.busy⟩
  | done i s a s' l hp hr =>
    obtain ⟨hw, ha⟩ := h.busy i s a hp
    refine ⟨fun _ => run_W hI hw ha hr, fun j t b hb => ?_⟩
    rcases upd_eq hb with ⟨_, e⟩ | ⟨hne, e⟩
    · cases e
    · exact absurd (hh.one (by rw [e]; trivial) (by rw [hp]; trivial)) hne
  | leave i hp => exact h.set i .release (fun s a hb => by rcases hp with hp | hp <;> rw [hp] at hb <;> cases hb) nofun
  | detach i t hp ht => exact ⟨h.calm, h.busy⟩
  | home i hp => exact h.set i .out (by rw [hp]; nofun) nofun
  | die i hc => exact h.set i .out hc nofun

theorem G_steps {m₀ F slot fuel main alive c} (hI : Image m₀ F slot) (hm : alive main)
    (h : Steps fuel main (Act.Ok m₀ F slot) (start (State.init m₀) alive) c) : G m₀ F slot c := by
  induction h with
  | refl => exact ⟨fun _ => Session.init_W hI, fun _ _ _ hb => by simp [start] at hb⟩
  | tail h h' ih => exact G_step hI (held_steps (held_start hm) h) ih h'

end Verif.Crowd
