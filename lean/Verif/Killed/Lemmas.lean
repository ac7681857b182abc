import Verif.Killed.Spec
import Verif.Session.Lemmas

/-! Supporting lemmas for `Verif.Killed.Props`. -/

namespace Verif.Killed

open Verif.Runtime (State Request)
open Verif.Session (QFault Log W)
open Verif.Killed.Spec

theorem upd_some {f : Nat → Option Th} {t u : Nat} {v : Option Th} {x : Th} (h : upd f t v u = some x) : (u = t ∧ v = some x) ∨ (u ≠ t ∧ f u = some x) := by
  unfold upd at h
  split at h
  · exact .inl ⟨by assumption, h⟩
  · exact .inr ⟨by assumption, h⟩

theorem upd_self {α : Type} (f : Nat → α) (k : Nat) (v : α) : upd f k v k = v := by simp [upd]

theorem upd_ne {α : Type} (f : Nat → α) {i k : Nat} (v : α) (h : i ≠ k) : upd f k v i = f i := by simp [upd, h]

/-- What the tool has done to a thread, by phase. -/
def PhOk (main t : Nat) (x : Th) : Phase → Prop
  | .out => x.traced = false
  | .scan => x.ctx = .own ∧ x.stop ≠ some .trap
  | .inside => x.traced = true ∧ x.stop ≠ none
  | .armed _ => x.traced = true ∧ x.stop ≠ none ∧ (t = main → x.ctx ≠ .own)
  | .waiting _ => x.traced = true ∧ x.pend = false ∧ (t ≠ main → x.stop ≠ none) ∧ (t = main → x.ctx ≠ .own)
  | .writing _ _ => x.traced = true ∧ x.stop ≠ none ∧ (t = main → x.stop = some .trap)
  | .release => x.ctx ≠ .own → x.stop ≠ none
  | .killed _ => False

structure ThOk (main : Nat) (p : Phase) (t : Nat) (x : Th) : Prop where
  inj : x.inj = none
  free : x.traced = false → x = free
  pend : x.pend = true → x.stop = none ∧ x.ctx = .own
  others : t ≠ main → x.ctx = .own ∧ x.stop ≠ some .trap
  busy : x.traced = true → x.stop = none → x.pend = true ∨ x.ctx ≠ .own
  phase : PhOk main t x p

/-- Before the tool is killed. -/
structure Live (main : Nat) (c : Conf) : Prop where
  going : c.proc = .going
  here : ∃ x, c.th main = some x
  all : ∀ t x, c.th t = some x → ThOk main c.phase t x

theorem live_start {main : Nat} {s : State} {alive : Nat → Bool} (h : alive main = true) : Live main (start s alive) := by
  refine ⟨rfl, ⟨Killed.free, by simp [start, h]⟩, fun t x hx => ?_⟩
  simp only [start] at hx
  split at hx
  · cases hx
    exact ⟨rfl, fun _ => rfl, nofun, fun _ => ⟨rfl, nofun⟩, nofun, rfl⟩
  · cases hx

theorem Live.upd {main : Nat} {c : Conf} (h : Live main c) (t : Nat) (y : Th) (p : Phase) (hy : ThOk main p t y)
    (ho : ∀ u x, u ≠ t → ThOk main c.phase u x → PhOk main u x p) : Live main { c with th := upd c.th t (some y), phase := p } := by
  refine ⟨h.going, ?_, fun u x hx => ?_⟩
  · by_cases e : main = t
    · exact ⟨y, by rw [e]; exact upd_self ..⟩
    · obtain ⟨x, hx⟩ := h.here
      exact ⟨x, by rw [← hx]; exact upd_ne _ _ e⟩
  · rcases upd_some hx with ⟨rfl, e⟩ | ⟨e, hx⟩
    · cases e; exact hy
    · have := h.all u x hx
      exact ⟨this.inj, this.free, this.pend, this.others, this.busy, ho u x e this⟩

theorem Live.to {main : Nat} {c : Conf} (h : Live main c) (p : Phase) (s : State) (l : Log) (ho : ∀ u x, c.th u = some x → ThOk main c.phase u x → PhOk main u x p) :
    Live main { c with s := s, log := l, phase := p } := by
  refine ⟨h.going, h.here, fun u x hx => ?_⟩
  have := h.all u x hx
  exact ⟨this.inj, this.free, this.pend, this.others, this.busy, ho u x hx this⟩

section
variable {fuel main : Nat} {okR : Request → Prop} {okQ : QFault → Prop} {mid : State → QFault → State → Prop} {cont inject : Bool}

theorem live_step {c d : Conf} (h : Live main c) (hs : Step fuel main okR okQ mid cont inject c d) : Live main d ∨ ∃ keep, d = c.kill keep ∧ (inject = true → ∀ t, keep t = true) := by
  have hk : ∀ b, c.phase ≠ .killed b := by
    intro b hb
    obtain ⟨x, hx⟩ := h.here
    have := (h.all _ _ hx).phase
    rw [hb] at this; exact this
  cases hs with
  | spawn u t hr hn =>
    refine .inl (h.upd t free c.phase ⟨rfl, fun _ => rfl, nofun, fun _ => ⟨rfl, nofun⟩, nofun, ?_⟩ fun _ _ _ hx => hx.phase)
    obtain ⟨-, y, hy, h1, h2, h3⟩ := hr
    have := (h.all _ _ hy).phase
    cases hp : c.phase <;> rw [hp] at this <;> simp_all [PhOk, free]
  | exit u hr hm =>
    refine .inl ⟨h.going, ?_, fun t x hx => ?_⟩
    · obtain ⟨x, hx⟩ := h.here
      exact ⟨x, by rw [← hx]; exact upd_ne _ _ (fun e => hm e.symm)⟩
    · rcases upd_some hx with ⟨_, e⟩ | ⟨_, e⟩
      · cases e
      · exact h.all t x e
  | halt t x hp hx h1 h2 h3 h4 =>
    have ho := h.all t x hx
    refine .inl (h.upd t _ c.phase ⟨ho.inj, (fun e => by rw [h2] at e; cases e), nofun, fun hm => ⟨(ho.others hm).1, nofun⟩, fun _ => nofun, ?_⟩ fun _ _ _ hx => hx.phase)
    have hpo := ho.phase
    have := ho.pend h1
    cases hp : c.phase <;> rw [hp] at hpo <;> simp_all [PhOk]
  | haltAll t x hp hx h1 h2 h3 =>
    have := (h.all t x hx).free h2
    subst this; cases h1
  | takeStop t x hp hx h1 => have := (h.all t x hx).inj; rw [h1] at this; cases this
  | takeTrap t x hx h1 => have := (h.all t x hx).inj; rw [h1] at this; cases this
  | exec t x k hp hx h1 h2 h3 =>
    have ho := h.all t x hx
    refine .inl (h.upd t _ c.phase ⟨ho.inj, fun e => ?_, fun e => ?_, fun hm => ?_, fun _ _ => .inr nofun, ?_⟩ fun _ _ _ hx => hx.phase)
    · have := ho.free e; subst this; cases h3
    · have := (ho.pend e).2; rw [h3] at this; cases this
    · have := (ho.others hm).1; rw [h3] at this; cases this
    · have hpo := ho.phase
      cases hp : c.phase <;> rw [hp] at hpo <;> simp_all [PhOk]
  | trap t x hp hx h1 h2 h3 h4 =>
    have ho := h.all t x hx
    refine .inl (h.upd t _ c.phase ⟨ho.inj, (fun e => by rw [h4] at e; cases e), fun e => ?_, fun hm => ?_, fun _ => nofun, ?_⟩ fun _ _ _ hx => hx.phase)
    · have := (ho.pend e).2; rw [h3] at this; cases this
    · have := (ho.others hm).1; rw [h3] at this; cases this
    · have hpo := ho.phase
      cases hp : c.phase <;> rw [hp] at hpo <;> simp_all [PhOk]
  | trapAlone t x hp hx h1 h2 h3 h4 =>
    have := (h.all t x hx).free h4
    subst this; cases h3
  | begin hp =>
    refine .inl (h.to .scan _ _ fun u x _ hx => ?_)
    have h1 := hx.phase
    rw [hp] at h1
    rw [hx.free h1]; exact ⟨rfl, nofun⟩
  | attach t x hp hx h1 =>
    have ho := h.all t x hx
    have := ho.free h1
    subst this
    refine .inl (h.upd t _ c.phase ⟨rfl, nofun, fun _ => ⟨rfl, rfl⟩, fun _ => ⟨rfl, nofun⟩, fun _ _ => .inl rfl, ?_⟩ fun _ _ _ hx => hx.phase)
    rw [hp]; exact ⟨rfl, nofun⟩
  | enter hp hall => exact .inl (h.to .inside _ _ fun u x hx _ => hall u x hx)
  | arm x r k hp hx hr =>
    have ho := h.all _ x hx
    have hpo := ho.phase
    rw [hp] at hpo
    refine .inl (h.upd main _ (.armed r) ⟨ho.inj, fun e => ?_, fun e => ?_, fun hm => absurd rfl hm, fun _ _ => .inr nofun, hpo.1, hpo.2, fun _ => nofun⟩ fun u y hu hy => ?_)
    · have e : x.traced = false := e
      rw [hpo.1] at e; cases e
    · exact absurd (ho.pend e).1 hpo.2
    · have := hy.phase
      rw [hp] at this
      exact ⟨this.1, this.2, fun e => absurd e hu⟩
  | go x r hp hx =>
    have ho := h.all _ x hx
    have hpo := ho.phase
    rw [hp] at hpo
    refine .inl (h.upd main _ (.waiting r) ⟨ho.inj, fun e => ?_, fun e => ?_, fun hm => absurd rfl hm, fun _ _ => .inr (hpo.2.2 rfl), hpo.1, ?_, fun hm => absurd rfl hm, hpo.2.2⟩ fun u y hu hy => ?_)
    · have e : x.traced = false := e
      rw [hpo.1] at e; cases e
    · exact absurd (ho.pend e).1 hpo.2.1
    · cases hb : x.pend with
      | false => rfl
      | true => exact absurd (ho.pend hb).1 hpo.2.1
    · have := hy.phase
      rw [hp] at this
      refine ⟨this.1, ?_, fun _ => this.2.1, fun e => absurd e hu⟩
      cases hb : y.pend with
      | false => rfl
      | true => exact absurd (hy.pend hb).1 this.2.1
  | answer x r s a hp hx h1 h2 =>
    refine .inl (h.to .inside _ _ fun u y hy hyo => ?_)
    have := hyo.phase
    rw [hp] at this
    refine ⟨this.1, ?_⟩
    by_cases e : u = main
    · subst e; rw [hx] at hy; cases hy; rw [h1]; nofun
    · exact this.2.2.1 e
  | write x f hp hx h1 h2 =>
    refine .inl (h.to (.writing c.s f) _ _ fun u y hy hyo => ?_)
    have := hyo.phase
    rw [hp] at this
    refine ⟨this.1, this.2, fun e => ?_⟩
    subst e; rw [hx] at hy; cases hy; exact h1
  | mid s f s' hp hm => exact .inl (h.to c.phase s' _ fun u x hx hxo => hxo.phase)
  | wrote s f s' e hp hi =>
    refine .inl (h.to .inside _ _ fun u x hx hxo => ?_)
    have := hxo.phase
    rw [hp] at this
    exact ⟨this.1, this.2.1⟩
  | leave hp =>
    refine .inl (h.to .release _ _ fun u x hx hxo => ?_)
    have := hxo.phase
    intro he
    rcases hp with hp | hp
    · rw [hp] at this; exact this.2
    · rw [hp] at this; exact absurd this.1 he
  | restore t x hp hx h1 h2 =>
    have ho := h.all t x hx
    refine .inl (h.upd t _ c.phase ⟨ho.inj, fun e => ?_, fun e => ⟨(ho.pend e).1, rfl⟩, fun hm => ⟨rfl, (ho.others hm).2⟩, fun _ e => absurd e h2, ?_⟩ fun _ _ _ hx => hx.phase)
    · have e : x.traced = false := e
      rw [h1] at e; cases e
    · rw [hp]; intro e; exact absurd rfl e
  | detach t x hp hx h1 h2 h3 =>
    have ho := h.all t x hx
    have : ({ x with traced := false, stop := none } : Th) = Killed.free := by
      have a := ho.inj
      have b : x.pend = false := by
        cases hb : x.pend with
        | false => rfl
        | true => exact absurd (ho.pend hb).1 h2
      cases x; simp_all [Killed.free]
    rw [this]
    refine .inl (h.upd t _ c.phase ⟨rfl, fun _ => rfl, nofun, fun _ => ⟨rfl, nofun⟩, nofun, ?_⟩ fun _ _ _ hx => hx.phase)
    rw [hp]; intro e; exact absurd rfl e
  | home hp hall => exact .inl (h.to .out _ _ fun u x hx _ => hall u x hx)
  | kill keep hb hj => exact .inr ⟨keep, rfl, hj⟩
  | sigcont b _ hb _ => exact absurd hb (hk b)

/-- Until the tool is killed; after that there is a moment when it was. -/
theorem live_steps {c d : Conf} (h : Live main c) (hs : Steps fuel main okR okQ mid cont inject c d) :
    Live main d ∨ ∃ e keep, Steps fuel main okR okQ mid cont inject c e ∧ Live main e ∧ Steps fuel main okR okQ mid cont inject (e.kill keep) d := by
  induction hs with
  | refl => exact .inl h
  | tail h1 h2 ih =>
    rcases ih with ih | ⟨e, keep, a, b, f⟩
    · rcases live_step ih h2 with h3 | ⟨keep, rfl, -⟩
      · exact .inl h3
      · exact .inr ⟨_, keep, h1, ih, .refl⟩
    · exact .inr ⟨e, keep, a, b, f.tail h2⟩

theorem not_killed {c : Conf} (h : Live main c) (b : Bool) : c.phase ≠ .killed b := by
  intro hb
  obtain ⟨x, hx⟩ := h.here
  have := (h.all _ _ hx).phase
  rw [hb] at this; exact this

/-! ### After the tool was killed -/

/-- Nobody is traced any more. -/
structure Orphans (c : Conf) : Prop where
  killed : ∃ b, c.phase = .killed b
  all : ∀ t x, c.th t = some x → x.traced = false ∧ x.stop = none

theorem kill_some {c : Conf} {keep : Nat → Bool} {t : Nat} {x : Th} (h : (c.kill keep).th t = some x) : ∃ y, c.th t = some y ∧ y.orphan (keep t) = x := Option.map_eq_some_iff.mp h

theorem cont_some {c : Conf} {t : Nat} {x : Th} (h : c.cont.th t = some x) : ∃ y, c.th t = some y ∧ y.cont = x := Option.map_eq_some_iff.mp h

theorem ThOk.orphan_stop {p : Phase} {t : Nat} {x : Th} {keep : Bool} (h : ThOk main p t x) : (x.orphan keep).traced = false ∧ (x.orphan keep).stop = none := by
  unfold Th.orphan
  split
  · exact ⟨rfl, rfl⟩
  · have : x.traced = false := by simpa using ‹¬x.traced = true›
    rw [h.free this]; exact ⟨rfl, rfl⟩

theorem ThOk.orphan_inj {p : Phase} {t : Nat} {x : Th} {keep : Bool} (h : ThOk main p t x) : (x.orphan keep).inj = if keep then x.stop else none := by
  unfold Th.orphan
  split
  · rfl
  · have : x.traced = false := by simpa using ‹¬x.traced = true›
    rw [h.free this]
    cases keep <;> rfl

theorem orphan_ctx (keep : Bool) (x : Th) : (x.orphan keep).ctx = x.ctx := by unfold Th.orphan; split <;> rfl

theorem orphan_pend (keep : Bool) (x : Th) : (x.orphan keep).pend = x.pend := by unfold Th.orphan; split <;> rfl

theorem Live.orphans {c : Conf} {keep : Nat → Bool} (h : Live main c) : Orphans (c.kill keep) := by
  refine ⟨⟨_, rfl⟩, fun t x hx => ?_⟩
  obtain ⟨y, hy, rfl⟩ := kill_some hx
  exact (h.all t y hy).orphan_stop

/-- The steps that are left. -/
inductive After (main : Nat) (cont : Bool) (c : Conf) : Conf → Prop
  | spawn (u t : Nat) : c.Running u → c.th t = none → After main cont c { c with th := upd c.th t (some free) }
  | exit (u : Nat) : c.Running u → u ≠ main → After main cont c { c with th := upd c.th u none }
  | haltAll (t : Nat) (x : Th) : c.proc = .going → c.th t = some x → x.pend = true →
      After main cont c { c with proc := .stopped, th := upd c.th t (some { x with pend := false }) }
  | takeStop (t : Nat) (x : Th) : c.proc ≠ .dead → c.th t = some x → x.inj = some .stop →
      After main cont c { c with proc := .stopped, th := upd c.th t (some { x with inj := none }) }
  | takeTrap (t : Nat) (x : Th) : c.th t = some x → x.inj = some .trap → After main cont c { c with proc := .dead }
  | exec (t : Nat) (x : Th) (k : Nat) : c.proc = .going → c.th t = some x → x.inj = none → x.ctx = .routine (k + 1) →
      After main cont c { c with th := upd c.th t (some { x with ctx := .routine k }) }
  | trapAlone (t : Nat) (x : Th) : c.proc = .going → c.th t = some x → x.inj = none → x.ctx = .routine 0 → After main cont c { c with proc := .dead }
  | sigcont : cont = true → c.proc ≠ .dead → After main cont c c.cont

theorem after_step {c d : Conf} (h : Orphans c) (hs : Step fuel main okR okQ mid cont inject c d) : After main cont c d ∧ Orphans d ∧ d.s = c.s ∧ d.log = c.log ∧ d.phase = c.phase := by
  obtain ⟨b, hb⟩ := h.killed
  have put : ∀ (pr : Proc) (t : Nat) (y : Option Th), (∀ x, y = some x → x.traced = false ∧ x.stop = none) → Orphans { c with proc := pr, th := upd c.th t y } := by
    intro pr t y hy
    refine ⟨⟨b, hb⟩, fun u x hx => ?_⟩
    rcases upd_some hx with ⟨_, e⟩ | ⟨_, e⟩
    · exact hy x e
    · exact h.all u x e
  cases hs with
  | spawn u t hr hn => exact ⟨.spawn u t hr hn, put _ _ _ (fun x hx => by cases hx; exact ⟨rfl, rfl⟩), rfl, rfl, rfl⟩
  | exit u hr hm => exact ⟨.exit u hr hm, put _ _ _ (fun x hx => by cases hx), rfl, rfl, rfl⟩
  | halt t x hp hx h1 h2 h3 h4 => have := (h.all t x hx).1; rw [h2] at this; cases this
  | haltAll t x hp hx h1 h2 h3 => exact ⟨.haltAll t x hp hx h1, put _ _ _ (fun y hy => by cases hy; exact h.all t x hx), rfl, rfl, rfl⟩
  | takeStop t x hp hx h1 => exact ⟨.takeStop t x hp hx h1, put _ _ _ (fun y hy => by cases hy; exact h.all t x hx), rfl, rfl, rfl⟩
  | takeTrap t x hx h1 => exact ⟨.takeTrap t x hx h1, ⟨⟨b, hb⟩, h.all⟩, rfl, rfl, rfl⟩
  | exec t x k hp hx h1 h2 h3 => exact ⟨.exec t x k hp hx h2 h3, put _ _ _ (fun y hy => by cases hy; exact h.all t x hx), rfl, rfl, rfl⟩
  | trap t x hp hx h1 h2 h3 h4 => have := (h.all t x hx).1; rw [h4] at this; cases this
  | trapAlone t x hp hx h1 h2 h3 h4 => exact ⟨.trapAlone t x hp hx h2 h3, ⟨⟨b, hb⟩, h.all⟩, rfl, rfl, rfl⟩
  | begin hp => rw [hb] at hp; cases hp
  | attach t x hp hx h1 => rw [hb] at hp; cases hp
  | enter hp hall => rw [hb] at hp; cases hp
  | arm x r k hp hx hr => rw [hb] at hp; cases hp
  | go x r hp hx => rw [hb] at hp; cases hp
  | answer x r s a hp hx h1 h2 => rw [hb] at hp; cases hp
  | write x f hp hx h1 h2 => rw [hb] at hp; cases hp
  | mid s f s' hp hm => rw [hb] at hp; cases hp
  | wrote s f s' e hp hi => rw [hb] at hp; cases hp
  | leave hp => rw [hb] at hp; rcases hp with hp | hp <;> cases hp
  | restore t x hp hx h1 h2 => rw [hb] at hp; cases hp
  | detach t x hp hx h1 h2 h3 => rw [hb] at hp; cases hp
  | home hp hall => rw [hb] at hp; cases hp
  | kill keep hk hj => exact absurd hb (hk b)
  | sigcont b' hc hp hd =>
    refine ⟨.sigcont hc hd, ⟨⟨b, hb⟩, fun t x hx => ?_⟩, rfl, rfl, rfl⟩
    obtain ⟨y, hy, rfl⟩ := cont_some hx
    exact h.all t y hy

/-- What holds after the tool was killed, and is preserved, holds for ever. -/
theorem after_steps {P : Conf → Prop} (hP : ∀ c d, Orphans c → P c → After main cont c d → P d) {c d : Conf} (h : Orphans c) (hc : P c)
    (hs : Steps fuel main okR okQ mid cont inject c d) : Orphans d ∧ P d ∧ d.phase = c.phase := by
  induction hs with
  | refl => exact ⟨h, hc, rfl⟩
  | tail _ h2 ih =>
    obtain ⟨a, b, -, -, e⟩ := after_step ih.1 h2
    exact ⟨b, hP _ _ ih.1 ih.2.1 a, e.trans ih.2.2⟩

theorem free_cont : free.cont = free := rfl

/-- Nothing happens to a process that is fine. -/
theorem fine_after {c d : Conf} (_ : Orphans c) (hc : Fine c) (h : After main cont c d) : Fine d := by
  obtain ⟨h1, h2⟩ := hc
  cases h with
  | spawn u t hr hn =>
    refine ⟨h1, fun v x hx => ?_⟩
    rcases upd_some hx with ⟨_, e⟩ | ⟨_, e⟩
    · cases e; rfl
    · exact h2 v x e
  | exit u hr hm =>
    refine ⟨h1, fun v x hx => ?_⟩
    rcases upd_some hx with ⟨_, e⟩ | ⟨_, e⟩
    · cases e
    · exact h2 v x e
  | haltAll t x hp hx h3 => have := h2 t x hx; subst this; cases h3
  | takeStop t x hp hx h3 => have := h2 t x hx; subst this; cases h3
  | takeTrap t x hx h3 => have := h2 t x hx; subst this; cases h3
  | exec t x k hp hx h3 h4 => have := h2 t x hx; subst this; cases h4
  | trapAlone t x hp hx h3 h4 => have := h2 t x hx; subst this; cases h4
  | sigcont hc hd =>
    refine ⟨rfl, fun v x hx => ?_⟩
    obtain ⟨y, hy, rfl⟩ := cont_some hx
    rw [h2 v y hy]; rfl

/-- Something keeps the process from going on. -/
def Stuck (main : Nat) (c : Conf) : Prop :=
  (∃ x, c.th main = some x) ∧ (c.proc ≠ .going ∨ (∃ t x, c.th t = some x ∧ x.inj ≠ none) ∨ ∃ x, c.th main = some x ∧ (x.pend = true ∨ x.ctx ≠ .own))

theorem stuck_after {c d : Conf} (_ : Orphans c) (hc : Stuck main c) (h : After main false c d) : Stuck main d := by
  obtain ⟨⟨m, hm⟩, hc⟩ := hc
  have keep : ∀ (t : Nat) (y : Th), ∃ x, upd c.th t (some y) main = some x := by
    intro t y
    by_cases e : main = t
    · exact ⟨y, by rw [e]; exact upd_self ..⟩
    · exact ⟨m, by rw [← hm]; exact upd_ne _ _ e⟩
  cases h with
  | spawn u t hr hn =>
    have hmt : main ≠ t := fun e => by rw [e, hn] at hm; cases hm
    refine ⟨keep _ _, ?_⟩
    rcases hc with h1 | ⟨v, x, hx, h2⟩ | ⟨x, hx, h2⟩
    · exact .inl h1
    · exact .inr (.inl ⟨v, x, by rw [← hx]; exact upd_ne _ _ (fun e => by rw [e, hn] at hx; cases hx), h2⟩)
    · exact .inr (.inr ⟨x, by rw [← hx]; exact upd_ne _ _ hmt, h2⟩)
  | exit u hr hu =>
    have hum : main ≠ u := fun e => hu e.symm
    refine ⟨⟨m, by rw [← hm]; exact upd_ne _ _ hum⟩, ?_⟩
    rcases hc with h1 | ⟨v, x, hx, h2⟩ | ⟨x, hx, h2⟩
    · exact .inl h1
    · have hv : v ≠ u := by
        rintro rfl
        obtain ⟨-, y, hy, -, h3, -⟩ := hr
        rw [hy] at hx
        cases hx
        exact h2 h3
      exact .inr (.inl ⟨v, x, by rw [← hx]; exact upd_ne _ _ hv, h2⟩)
    · exact .inr (.inr ⟨x, by rw [← hx]; exact upd_ne _ _ hum, h2⟩)
  | haltAll t x hp hx h3 => exact ⟨keep _ _, .inl (by simp)⟩
  | takeStop t x hp hx h3 => exact ⟨keep _ _, .inl (by simp)⟩
  | takeTrap t x hx h3 => exact ⟨⟨m, hm⟩, .inl (by simp)⟩
  | exec t x k hp hx h3 h4 =>
    refine ⟨keep _ _, ?_⟩
    rcases hc with h1 | ⟨v, y, hy, h2⟩ | ⟨y, hy, h2⟩
    · exact .inl h1
    · have hv : v ≠ t := by
        rintro rfl
        rw [hx] at hy; cases hy; exact h2 h3
      exact .inr (.inl ⟨v, y, by rw [← hy]; exact upd_ne _ _ hv, h2⟩)
    · by_cases e : main = t
      · exact .inr (.inr ⟨_, by rw [e]; exact upd_self .., .inr (by simp)⟩)
      · exact .inr (.inr ⟨y, by rw [← hy]; exact upd_ne _ _ e, h2⟩)
  | trapAlone t x hp hx h3 h4 => exact ⟨⟨m, hm⟩, .inl (by simp)⟩
  | sigcont hc hd => cases hc

theorem Stuck.not_fine {c : Conf} (h : Stuck main c) : ¬ Fine c := by
  rintro ⟨h1, h2⟩
  rcases h.2 with h3 | ⟨t, x, hx, h3⟩ | ⟨x, hx, h3⟩
  · exact h3 h1
  · rw [h2 t x hx] at h3; exact h3 rfl
  · rw [h2 _ x hx] at h3
    rcases h3 with h3 | h3
    · cases h3
    · exact h3 rfl

/-- All threads have their own registers, and nothing kills the process. -/
structure Tame (c : Conf) : Prop where
  proc : c.proc ≠ .dead
  all : ∀ t x, c.th t = some x → x.ctx = .own ∧ x.inj ≠ some .trap

theorem tame_after {c d : Conf} (_ : Orphans c) (hc : Tame c) (h : After main cont c d) : Tame d := by
  obtain ⟨h1, h2⟩ := hc
  have put : ∀ (pr : Proc) (t : Nat) (y : Option Th), pr ≠ .dead → (∀ x, y = some x → x.ctx = .own ∧ x.inj ≠ some .trap) → Tame { c with proc := pr, th := upd c.th t y } := by
    intro pr t y hp hy
    refine ⟨hp, fun u x hx => ?_⟩
    rcases upd_some hx with ⟨_, e⟩ | ⟨_, e⟩
    · exact hy x e
    · exact h2 u x e
  cases h with
  | spawn u t hr hn => exact put _ _ _ h1 (fun x hx => by cases hx; exact ⟨rfl, nofun⟩)
  | exit u hr hm => exact put _ _ _ h1 (fun x hx => by cases hx)
  | haltAll t x hp hx h3 => exact put _ _ _ nofun (fun y hy => by cases hy; exact h2 t x hx)
  | takeStop t x hp hx h3 => exact put _ _ _ nofun (fun y hy => by cases hy; exact ⟨(h2 t x hx).1, nofun⟩)
  | takeTrap t x hx h3 => exact absurd h3 (h2 t x hx).2
  | exec t x k hp hx h3 h4 => have := (h2 t x hx).1; rw [h4] at this; cases this
  | trapAlone t x hp hx h3 h4 => have := (h2 t x hx).1; rw [h4] at this; cases this
  | sigcont hc hd =>
    refine ⟨nofun, fun t x hx => ?_⟩
    obtain ⟨y, hy, rfl⟩ := cont_some hx
    refine ⟨(h2 t y hy).1, ?_⟩
    show (if y.inj = some .stop then none else y.inj) ≠ some .trap
    split
    · nofun
    · exact (h2 t y hy).2

theorem Tame.fine {c : Conf} (ho : Orphans c) (h : Tame c) : Fine c.cont := by
  refine ⟨rfl, fun t x hx => ?_⟩
  obtain ⟨y, hy, rfl⟩ := cont_some hx
  obtain ⟨h1, h2⟩ := h.all t y hy
  obtain ⟨h3, h4⟩ := ho.all t y hy
  obtain ⟨tr, st, pe, inj, ctx⟩ := y
  simp only at h1 h2 h3 h4
  subst h1 h3 h4
  cases inj with
  | none => rfl
  | some s =>
    cases s with
    | stop => rfl
    | trap => exact absurd rfl h2

/-- The main thread is lost. -/
def Lost (main : Nat) (c : Conf) : Prop := c.proc = .dead ∨ ∃ x, c.th main = some x ∧ (x.inj = some .trap ∨ x.ctx ≠ .own)

theorem lost_after {c d : Conf} (_ : Orphans c) (hc : Lost main c) (h : After main cont c d) : Lost main d := by
  rcases hc with hd | ⟨m, hm, hl⟩
  · cases h with
    | spawn u t hr hn => exact .inl hd
    | exit u hr hu => exact .inl hd
    | haltAll t x hp hx h3 => rw [hd] at hp; cases hp
    | takeStop t x hp hx h3 => exact absurd hd hp
    | takeTrap t x hx h3 => exact .inl rfl
    | exec t x k hp hx h3 h4 => exact .inl hd
    | trapAlone t x hp hx h3 h4 => exact .inl rfl
    | sigcont hc hd' => exact absurd hd hd'
  · have put : ∀ (pr : Proc) (t : Nat) (y : Th), (t = main → y.inj = some .trap ∨ y.ctx ≠ .own) → Lost main { c with proc := pr, th := upd c.th t (some y) } := by
      intro pr t y hy
      by_cases e : main = t
      · exact .inr ⟨y, by rw [e]; exact upd_self .., hy e.symm⟩
      · exact .inr ⟨m, by rw [← hm]; exact upd_ne _ _ e, hl⟩
    cases h with
    | spawn u t hr hn => exact put _ _ _ (fun e => by rw [e, hm] at hn; cases hn)
    | exit u hr hu => exact .inr ⟨m, by rw [← hm]; exact upd_ne _ _ (fun e => hu e.symm), hl⟩
    | haltAll t x hp hx h3 => exact put _ _ _ (fun e => by rw [e, hm] at hx; cases hx; exact hl)
    | takeStop t x hp hx h3 =>
      refine put _ _ _ (fun e => ?_)
      rw [e, hm] at hx
      cases hx
      rcases hl with hl | hl
      · rw [h3] at hl; cases hl
      · exact .inr hl
    | takeTrap t x hx h3 => exact .inl rfl
    | exec t x k hp hx h3 h4 => exact put _ _ _ (fun _ => .inr nofun)
    | trapAlone t x hp hx h3 h4 => exact .inl rfl
    | sigcont hc hd =>
      refine .inr ⟨m.cont, by show (c.th main).map Th.cont = _; rw [hm]; rfl, ?_⟩
      rcases hl with hl | hl
      · left; show (if m.inj = some .stop then none else m.inj) = _; rw [if_neg (by rw [hl]; nofun), hl]
      · exact .inr hl

theorem Lost.not_running {c : Conf} (h : Lost main c) : ¬ c.Running main := by
  rintro ⟨h1, x, hx, -, h2, h3⟩
  rcases h with h | ⟨y, hy, h⟩
  · rw [h1] at h; cases h
  · rw [hx] at hy
    cases hy
    rcases h with h | h
    · rw [h2] at h; cases h
    · exact h h3

theorem Steps.trans {c d e : Conf} (h1 : Steps fuel main okR okQ mid cont inject c d) (h2 : Steps fuel main okR okQ mid cont inject d e) : Steps fuel main okR okQ mid cont inject c e := by
  induction h2 with
  | refl => exact h1
  | tail _ h ih => exact ih.tail h

/-- A thread in a routine, on its own. -/
theorem runs_out (k : Nat) {c : Conf} (ho : Orphans c) (hg : c.proc = .going) {x : Th} (hx : c.th main = some x) (h1 : x.inj = none) (h2 : x.ctx = .routine k) :
    ∃ d, Steps fuel main okR okQ mid cont inject c d ∧ d.proc = .dead := by
  induction k generalizing c x with
  | zero => exact ⟨_, .tail .refl (.trapAlone c main x hg hx (ho.all _ _ hx).2 h1 h2 (ho.all _ _ hx).1), rfl⟩
  | succ k ih =>
    have st := Step.exec (fuel := fuel) (main := main) (okR := okR) (okQ := okQ) (mid := mid) (cont := cont) (inject := inject) c main x k hg hx (ho.all _ _ hx).2 h1 h2
    have h3 := (after_step ho st).2.1
    obtain ⟨d, h4, h5⟩ := ih h3 hg (upd_self ..) h1 rfl
    exact ⟨d, (Steps.tail .refl st).trans h4, h5⟩

theorem Lost.dies {c : Conf} (ho : Orphans c) (h : Lost main c) : ∃ d, Steps fuel main okR okQ mid true inject c d ∧ d.proc = .dead := by
  by_cases hd : c.proc = .dead
  · exact ⟨c, .refl, hd⟩
  · obtain ⟨b, hb⟩ := ho.killed
    have st := Step.sigcont (fuel := fuel) (main := main) (okR := okR) (okQ := okQ) (mid := mid) (cont := true) (inject := inject) c b rfl hb hd
    have h3 := after_step ho st
    have h4 := lost_after ho h h3.1
    rcases h4 with h4 | ⟨x, hx, h5⟩
    · cases h4
    · by_cases hi : x.inj = some .trap
      · exact ⟨_, (Steps.tail .refl st).tail (.takeTrap _ main x hx hi), rfl⟩
      · have h6 : x.inj = none := by
          obtain ⟨y, hy, rfl⟩ := cont_some hx
          show (if y.inj = some .stop then none else y.inj) = none
          have hi : (if y.inj = some .stop then none else y.inj) ≠ some .trap := hi
          cases he : y.inj with
          | none => rfl
          | some s =>
            cases s with
            | stop => rfl
            | trap => rw [he] at hi; exact absurd rfl hi
        rcases h5 with h5 | h5
        · exact absurd h5 hi
        · cases hk : x.ctx with
          | own => exact absurd hk h5
          | routine k =>
            obtain ⟨d, h7, h8⟩ := runs_out (fuel := fuel) (okR := okR) (okQ := okQ) (mid := mid) (cont := true) (inject := inject) k h3.2.1 rfl hx h6 hk
            exact ⟨d, (Steps.tail .refl st).trans h7, h8⟩

/-- Nobody runs. -/
def Quiet (c : Conf) : Prop := c.proc ≠ .going ∨ ∀ t x, c.th t = some x → x.inj ≠ none

theorem Quiet.not_running {c : Conf} (h : Quiet c) (t : Nat) : ¬ c.Running t := by
  rintro ⟨h1, x, hx, -, h2, -⟩
  rcases h with h | h
  · exact h h1
  · exact h t x hx h2

theorem quiet_after {c d : Conf} (hq : Quiet c) (h : After main false c d) : Quiet d := by
  cases h with
  | spawn u t hr hn => exact absurd hr (hq.not_running u)
  | exit u hr hm => exact absurd hr (hq.not_running u)
  | haltAll t x hp hx h3 => exact .inl nofun
  | takeStop t x hp hx h3 => exact .inl nofun
  | takeTrap t x hx h3 => exact .inl nofun
  | exec t x k hp hx h3 h4 =>
    rcases hq with hq | hq
    · exact absurd hp hq
    · exact absurd h3 (hq t x hx)
  | trapAlone t x hp hx h3 h4 => exact .inl nofun
  | sigcont hc hd => cases hc

end

/-! ### What the threads see -/

section
open Verif.Runtime.Spec Verif.Session.Spec
variable {m₀ : Mem} {F slot : Nat → Prop} {fuel main : Nat} {mid : State → QFault → State → Prop} {cont inject : Bool}

/-- The process is as the finished actions left it, or nobody runs. -/
def G (m₀ : Mem) (F slot : Nat → Prop) (cont inject : Bool) (c : Conf) : Phase → Prop
  | .writing s f => W m₀ F slot s c.log ∧ QFault.Ok f
  | .armed r => W m₀ F slot c.s c.log ∧ Fits m₀ F slot r
  | .waiting r => W m₀ F slot c.s c.log ∧ Fits m₀ F slot r
  | .killed true => cont = false → inject = true → Quiet c
  | _ => W m₀ F slot c.s c.log

theorem G.same {c d : Conf} {p : Phase} (h : G m₀ F slot cont inject c p) (hp : ∀ b, p ≠ .killed b) (h1 : d.s = c.s ∨ p.isWriting = true) (h2 : d.log = c.log) : G m₀ F slot cont inject d p := by
  cases p <;> simp_all [G, Phase.isWriting]

theorem G_live {c d : Conf} (hI : Image m₀ F slot) (hl : Live main c) (h : G m₀ F slot cont inject c c.phase) (hs : Step fuel main (Fits m₀ F slot) QFault.Ok mid cont inject c d) :
    G m₀ F slot cont inject d d.phase := by
  have hk := not_killed hl
  cases hs with
  | spawn u t hr hn => exact h.same hk (.inl rfl) rfl
  | exit u hr hm => exact h.same hk (.inl rfl) rfl
  | halt t x hp hx h1 h2 h3 h4 => exact h.same hk (.inl rfl) rfl
  | haltAll t x hp hx h1 h2 h3 => exact h.same hk (.inl rfl) rfl
  | takeStop t x hp hx h1 => exact h.same hk (.inl rfl) rfl
  | takeTrap t x hx h1 => exact h.same hk (.inl rfl) rfl
  | exec t x k hp hx h1 h2 h3 => exact h.same hk (.inl rfl) rfl
  | trap t x hp hx h1 h2 h3 h4 => exact h.same hk (.inl rfl) rfl
  | trapAlone t x hp hx h1 h2 h3 h4 => exact h.same hk (.inl rfl) rfl
  | begin hp => rw [hp] at h; exact h
  | attach t x hp hx h1 => exact h.same hk (.inl rfl) rfl
  | enter hp hall => rw [hp] at h; exact h
  | arm x r k hp hx hr => rw [hp] at h; exact ⟨h, hr⟩
  | go x r hp hx => rw [hp] at h; exact h
  | answer x r s a hp hx h1 h2 => rw [hp] at h; exact h.1.raw hI h.2 h2
  | write x f hp hx h1 h2 => rw [hp] at h; exact ⟨h, h2⟩
  | mid s f s' hp hm => exact h.same hk (.inr (by rw [hp]; rfl)) rfl
  | wrote s f s' e hp hi => rw [hp] at h; exact h.1.interp hI h.2 hi
  | leave hp => rcases hp with hp | hp <;> rw [hp] at h <;> exact h
  | restore t x hp hx h1 h2 => exact h.same hk (.inl rfl) rfl
  | detach t x hp hx h1 h2 h3 => exact h.same hk (.inl rfl) rfl
  | home hp hall => rw [hp] at h; exact h
  | kill keep hb hj =>
    show G m₀ F slot cont inject (c.kill keep) (.killed c.phase.isWriting)
    cases hp : c.phase with
    | writing s f =>
      intro _ hi
      refine .inr fun t x hx => ?_
      obtain ⟨y, hy, rfl⟩ := kill_some hx
      have ho := hl.all t y hy
      rw [ho.orphan_inj, hj hi t, if_pos rfl]
      have := ho.phase
      rw [hp] at this
      exact this.2.1
    | killed b => exact absurd hp (hk b)
    | armed r => rw [hp] at h; exact h.1
    | waiting r => rw [hp] at h; exact h.1
    | out => rw [hp] at h; exact h
    | scan => rw [hp] at h; exact h
    | inside => rw [hp] at h; exact h
    | release => rw [hp] at h; exact h
  | sigcont b _ hb _ => exact absurd hb (hk b)

theorem G_after {c d : Conf} (ho : Orphans c) (h : G m₀ F slot cont inject c c.phase) (hs : Step fuel main (Fits m₀ F slot) QFault.Ok mid cont inject c d) :
    G m₀ F slot cont inject d d.phase := by
  obtain ⟨h1, -, h2, h3, h4⟩ := after_step ho hs
  obtain ⟨b, hb⟩ := ho.killed
  rw [h4]
  rw [hb] at h ⊢
  cases b with
  | true => intro hc hi; subst hc; exact quiet_after (h rfl hi) h1
  | false => show W m₀ F slot d.s d.log; rw [h2, h3]; exact h

theorem G_steps {alive : Nat → Bool} {c : Conf} (hI : Image m₀ F slot) (hm : alive main = true)
    (h : Steps fuel main (Fits m₀ F slot) QFault.Ok mid cont inject (start (State.init m₀) alive) c) : (Live main c ∨ Orphans c) ∧ G m₀ F slot cont inject c c.phase := by
  induction h with
  | refl => exact ⟨.inl (live_start hm), Session.init_W hI⟩
  | tail _ h2 ih =>
    rcases ih.1 with hl | ho
    · refine ⟨?_, G_live hI hl ih.2 h2⟩
      rcases live_step hl h2 with h3 | ⟨keep, rfl, -⟩
      · exact .inl h3
      · exact .inr hl.orphans
    · exact ⟨.inr (after_step ho h2).2.1, G_after ho ih.2 h2⟩

end

end Verif.Killed
