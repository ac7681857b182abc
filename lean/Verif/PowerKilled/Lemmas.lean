import Verif.PowerKilled.Model
import Verif.PowerSession.Lemmas
import Verif.Killed.Lemmas

/-! Supporting lemmas for `Verif.PowerKilled.Props`. -/

namespace Verif.Power.Run.Slain

open Verif.Runtime (State Request)
open Verif.Session (QFault Log)
open Verif.Killed (Sig Ctx Th free Proc Phase Conf upd start between)
open Verif.Killed (upd_some upd_self upd_ne PhOk ThOk Live live_start not_killed Orphans kill_some cont_some orphan_ctx orphan_pend After free_cont fine_after Stuck stuck_after Tame tame_after Lost lost_after Quiet quiet_after)
open Verif.Killed.Spec

section
variable {tm : List UInt8} {fuel main : Nat} {okR : Request → Prop} {okQ : QFault → Prop} {mid : State → QFault → State → Prop} {cont inject : Bool}

theorem live_step {c d : Conf} (h : Live main c) (hs : Step tm fuel main okR okQ mid cont inject c d) : Live main d ∨ ∃ keep, d = c.kill keep ∧ (inject = true → ∀ t, keep t = true) := by
  have hk : ∀ b, c.phase ≠ .killed b := by
    intro b hb
    obtain ⟨x, hx⟩ := h.here
    have := (h.all _ _ hx).phase
    rw [hb] at this; exact this
  cases hs with
  | spawn u t hr hn =>
    refine .inl (h.upd t free c.phase ⟨rfl, fun _ => rfl, nofun, fun _ => ⟨rfl, nofun⟩, nofun, ?_⟩ fun _ _ _ hx => hx.phase)
    obtain ⟨-, y, hy, h1, h2, h3⟩ := hr
    have := (h.all _ _ hy).phase
    cases hp : c.phase <;> rw [hp] at this <;> simp_all [PhOk, free]
  | exit u hr hm =>
    refine .inl ⟨h.going, ?_, fun t x hx => ?_⟩
    · obtain ⟨x, hx⟩ := h.here
      exact ⟨x, by rw [← hx]; exact upd_ne _ _ (fun e => hm e.symm)⟩
    · rcases upd_some hx with ⟨_, e⟩ | ⟨_, e⟩
      · cases e
      · exact h.all t x e
  | halt t x hp hx h1 h2 h3 h4 =>
    have ho := h.all t x hx
    refine .inl (h.upd t _ c.phase ⟨ho.inj, (fun e => by rw [h2] at e; cases e), nofun, fun hm => ⟨(ho.others hm).1, nofun⟩, fun _ => nofun, ?_⟩ fun _ _ _ hx => hx.phase)
    have hpo := ho.phase
    have := ho.pend h1
    cases hp : c.phase <;> rw [hp] at hpo <;> simp_all [PhOk]
  | haltAll t x hp hx h1 h2 h3 =>
    have := (h.all t x hx).free h2
    subst this; cases h1
  | takeStop t x hp hx h1 => have := (h.all t x hx).inj; rw [h1] at this; cases this
  | takeTrap t x hx h1 => have := (h.all t x hx).inj; rw [h1] at this; cases this
  | exec t x k hp hx h1 h2 h3 =>
    have ho := h.all t x hx
    refine .inl (h.upd t _ c.phase ⟨ho.inj, fun e => ?_, fun e => ?_, fun hm => ?_, fun _ _ => .inr nofun, ?_⟩ fun _ _ _ hx => hx.phase)
    · have := ho.free e; subst this; cases h3
    · have := (ho.pend e).2; rw [h3] at this; cases this
    · have := (ho.others hm).1; rw [h3] at this; cases this
    · have hpo := ho.phase
      cases hp : c.phase <;> rw [hp] at hpo <;> simp_all [PhOk]
  | trap t x hp hx h1 h2 h3 h4 =>
    have ho := h.all t x hx
    refine .inl (h.upd t _ c.phase ⟨ho.inj, (fun e => by rw [h4] at e; cases e), fun e => ?_, fun hm => ?_, fun _ => nofun, ?_⟩ fun _ _ _ hx => hx.phase)
    · have := (ho.pend e).2; rw [h3] at this; cases this
    · have := (ho.others hm).1; rw [h3] at this; cases this
    · have hpo := ho.phase
      cases hp : c.phase <;> rw [hp] at hpo <;> simp_all [PhOk]
  | trapAlone t x hp hx h1 h2 h3 h4 =>
    have := (h.all t x hx).free h4
    subst this; cases h3
  | begin hp =>
    refine .inl (h.to .scan _ _ fun u x _ hx => ?_)
    have h1 := hx.phase
    rw [hp] at h1
    rw [hx.free h1]; exact ⟨rfl, nofun⟩
  | attach t x hp hx h1 =>
    have ho := h.all t x hx
    have := ho.free h1
    subst this
    refine .inl (h.upd t _ c.phase ⟨rfl, nofun, fun _ => ⟨rfl, rfl⟩, fun _ => ⟨rfl, nofun⟩, fun _ _ => .inl rfl, ?_⟩ fun _ _ _ hx => hx.phase)
    rw [hp]; exact ⟨rfl, nofun⟩
  | enter hp hall => exact .inl (h.to .inside _ _ fun u x hx _ => hall u x hx)
  | arm x r k hp hx hr =>
    have ho := h.all _ x hx
    have hpo := ho.phase
    rw [hp] at hpo
    refine .inl (h.upd main _ (.armed r) ⟨ho.inj, fun e => ?_, fun e => ?_, fun hm => absurd rfl hm, fun _ _ => .inr nofun, hpo.1, hpo.2, fun _ => nofun⟩ fun u y hu hy => ?_)
    · have e : x.traced = false := e
      rw [hpo.1] at e; cases e
    · exact absurd (ho.pend e).1 hpo.2
    · have := hy.phase
      rw [hp] at this
      exact ⟨this.1, this.2, fun e => absurd e hu⟩
  | go x r hp hx =>
    have ho := h.all _ x hx
    have hpo := ho.phase
    rw [hp] at hpo
    refine .inl (h.upd main _ (.waiting r) ⟨ho.inj, fun e => ?_, fun e => ?_, fun hm => absurd rfl hm, fun _ _ => .inr (hpo.2.2 rfl), hpo.1, ?_, fun hm => absurd rfl hm, hpo.2.2⟩ fun u y hu hy => ?_)
    · have e : x.traced = false := e
      rw [hpo.1] at e; cases e
    · exact absurd (ho.pend e).1 hpo.2.1
    · cases hb : x.pend with
      | false => rfl
      | true => exact absurd (ho.pend hb).1 hpo.2.1
    · have := hy.phase
      rw [hp] at this
      refine ⟨this.1, ?_, fun _ => this.2.1, fun e => absurd e hu⟩
      cases hb : y.pend with
      | false => rfl
      | true => exact absurd (hy.pend hb).1 this.2.1
  | answer x r s a hp hx h1 h2 =>
    refine .inl (h.to .inside _ _ fun u y hy hyo => ?_)
    have := hyo.phase
    rw [hp] at this
    refine ⟨this.1, ?_⟩
    by_cases e : u = main
    · subst e; rw [hx] at hy; cases hy; rw [h1]; nofun
    · exact this.2.2.1 e
  | write x f hp hx h1 h2 =>
    refine .inl (h.to (.writing c.s f) _ _ fun u y hy hyo => ?_)
    have := hyo.phase
    rw [hp] at this
    refine ⟨this.1, this.2, fun e => ?_⟩
    subst e; rw [hx] at hy; cases hy; exact h1
  | mid s f s' hp hm => exact .inl (h.to c.phase s' _ fun u x hx hxo => hxo.phase)
  | wrote s f s' e hp hi =>
    refine .inl (h.to .inside _ _ fun u x hx hxo => ?_)
    have := hxo.phase
    rw [hp] at this
    exact ⟨this.1, this.2.1⟩
  | leave hp =>
    refine .inl (h.to .release _ _ fun u x hx hxo => ?_)
    have := hxo.phase
    intro he
    rcases hp with hp | hp
    · rw [hp] at this; exact this.2
    · rw [hp] at this; exact absurd this.1 he
  | restore t x hp hx h1 h2 =>
    have ho := h.all t x hx
    refine .inl (h.upd t _ c.phase ⟨ho.inj, fun e => ?_, fun e => ⟨(ho.pend e).1, rfl⟩, fun hm => ⟨rfl, (ho.others hm).2⟩, fun _ e => absurd e h2, ?_⟩ fun _ _ _ hx => hx.phase)
    · have e : x.traced = false := e
      rw [h1] at e; cases e
    · rw [hp]; intro e; exact absurd rfl e
  | detach t x hp hx h1 h2 h3 =>
    have ho := h.all t x hx
    have : ({ x with traced := false, stop := none } : Th) = Killed.free := by
      have a := ho.inj
      have b : x.pend = false := by
        cases hb : x.pend with
        | false => rfl
        | true => exact absurd (ho.pend hb).1 h2
      cases x; simp_all [Killed.free]
    rw [this]
    refine .inl (h.upd t _ c.phase ⟨rfl, fun _ => rfl, nofun, fun _ => ⟨rfl, nofun⟩, nofun, ?_⟩ fun _ _ _ hx => hx.phase)
    rw [hp]; intro e; exact absurd rfl e
  | home hp hall => exact .inl (h.to .out _ _ fun u x hx _ => hall u x hx)
  | kill keep hb hj => exact .inr ⟨keep, rfl, hj⟩
  | sigcont b _ hb _ => exact absurd hb (hk b)

/-- Until the tool is killed; after that there is a moment when it was. -/
theorem live_steps {c d : Conf} (h : Live main c) (hs : Steps tm fuel main okR okQ mid cont inject c d) :
    Live main d ∨ ∃ e keep, Steps tm fuel main okR okQ mid cont inject c e ∧ Live main e ∧ Steps tm fuel main okR okQ mid cont inject (e.kill keep) d := by
  induction hs with
  | refl => exact .inl h
  | tail h1 h2 ih =>
    rcases ih with ih | ⟨e, keep, a, b, f⟩
    · rcases live_step ih h2 with h3 | ⟨keep, rfl, -⟩
      · exact .inl h3
      · exact .inr ⟨_, keep, h1, ih, .refl⟩
    · exact .inr ⟨e, keep, a, b, f.tail h2⟩

theorem after_step {c d : Conf} (h : Orphans c) (hs : Step tm fuel main okR okQ mid cont inject c d) : After main cont c d ∧ Orphans d ∧ d.s = c.s ∧ d.log = c.log ∧ d.phase = c.phase := by
  obtain ⟨b, hb⟩ := h.killed
  have put : ∀ (pr : Proc) (t : Nat) (y : Option Th), (∀ x, y = some x → x.traced = false ∧ x.stop = none) → Orphans { c with proc := pr, th := upd c.th t y } := by
    intro pr t y hy
    refine ⟨⟨b, hb⟩, fun u x hx => ?_⟩
    rcases upd_some hx with ⟨_, e⟩ | ⟨_, e⟩
    · exact hy x e
    · exact h.all u x e
  cases hs with
  | spawn u t hr hn => exact ⟨.spawn u t hr hn, put _ _ _ (fun x hx => by cases hx; exact ⟨rfl, rfl⟩), rfl, rfl, rfl⟩
  | exit u hr hm => exact ⟨.exit u hr hm, put _ _ _ (fun x hx => by cases hx), rfl, rfl, rfl⟩
  | halt t x hp hx h1 h2 h3 h4 => have := (h.all t x hx).1; rw [h2] at this; cases this
  | haltAll t x hp hx h1 h2 h3 => exact ⟨.haltAll t x hp hx h1, put _ _ _ (fun y hy => by cases hy; exact h.all t x hx), rfl, rfl, rfl⟩
  | takeStop t x hp hx h1 => exact ⟨.takeStop t x hp hx h1, put _ _ _ (fun y hy => by cases hy; exact h.all t x hx), rfl, rfl, rfl⟩
  | takeTrap t x hx h1 => exact ⟨.takeTrap t x hx h1, ⟨⟨b, hb⟩, h.all⟩, rfl, rfl, rfl⟩
  | exec t x k hp hx h1 h2 h3 => exact ⟨.exec t x k hp hx h2 h3, put _ _ _ (fun y hy => by cases hy; exact h.all t x hx), rfl, rfl, rfl⟩
  | trap t x hp hx h1 h2 h3 h4 => have := (h.all t x hx).1; rw [h4] at this; cases this
  | trapAlone t x hp hx h1 h2 h3 h4 => exact ⟨.trapAlone t x hp hx h2 h3, ⟨⟨b, hb⟩, h.all⟩, rfl, rfl, rfl⟩
  | begin hp => rw [hb] at hp; cases hp
  | attach t x hp hx h1 => rw [hb] at hp; cases hp
  | enter hp hall => rw [hb] at hp; cases hp
  | arm x r k hp hx hr => rw [hb] at hp; cases hp
  | go x r hp hx => rw [hb] at hp; cases hp
  | answer x r s a hp hx h1 h2 => rw [hb] at hp; cases hp
  | write x f hp hx h1 h2 => rw [hb] at hp; cases hp
  | mid s f s' hp hm => rw [hb] at hp; cases hp
  | wrote s f s' e hp hi => rw [hb] at hp; cases hp
  | leave hp => rw [hb] at hp; rcases hp with hp | hp <;> cases hp
  | restore t x hp hx h1 h2 => rw [hb] at hp; cases hp
  | detach t x hp hx h1 h2 h3 => rw [hb] at hp; cases hp
  | home hp hall => rw [hb] at hp; cases hp
  | kill keep hk hj => exact absurd hb (hk b)
  | sigcont b' hc hp hd =>
    refine ⟨.sigcont hc hd, ⟨⟨b, hb⟩, fun t x hx => ?_⟩, rfl, rfl, rfl⟩
    obtain ⟨y, hy, rfl⟩ := cont_some hx
    exact h.all t y hy

/-- What holds after the tool was killed, and is preserved, holds for ever. -/
theorem after_steps {P : Conf → Prop} (hP : ∀ c d, Orphans c → P c → After main cont c d → P d) {c d : Conf} (h : Orphans c) (hc : P c)
    (hs : Steps tm fuel main okR okQ mid cont inject c d) : Orphans d ∧ P d ∧ d.phase = c.phase := by
  induction hs with
  | refl => exact ⟨h, hc, rfl⟩
  | tail _ h2 ih =>
    obtain ⟨a, b, -, -, e⟩ := after_step ih.1 h2
    exact ⟨b, hP _ _ ih.1 ih.2.1 a, e.trans ih.2.2⟩

theorem Steps.trans {c d e : Conf} (h1 : Steps tm fuel main okR okQ mid cont inject c d) (h2 : Steps tm fuel main okR okQ mid cont inject d e) : Steps tm fuel main okR okQ mid cont inject c e := by
  induction h2 with
  | refl => exact h1
  | tail _ h ih => exact ih.tail h

/-- A thread in a routine, on its own. -/
theorem runs_out (k : Nat) {c : Conf} (ho : Orphans c) (hg : c.proc = .going) {x : Th} (hx : c.th main = some x) (h1 : x.inj = none) (h2 : x.ctx = .routine k) :
    ∃ d, Steps tm fuel main okR okQ mid cont inject c d ∧ d.proc = .dead := by
  induction k generalizing c x with
  | zero => exact ⟨_, .tail .refl (.trapAlone c main x hg hx (ho.all _ _ hx).2 h1 h2 (ho.all _ _ hx).1), rfl⟩
  | succ k ih =>
    have st := Step.exec (tm := tm) (fuel := fuel) (main := main) (okR := okR) (okQ := okQ) (mid := mid) (cont := cont) (inject := inject) c main x k hg hx (ho.all _ _ hx).2 h1 h2
    have h3 := (after_step ho st).2.1
    obtain ⟨d, h4, h5⟩ := ih h3 hg (upd_self ..) h1 rfl
    exact ⟨d, (Steps.tail .refl st).trans h4, h5⟩

theorem lost_dies {c : Conf} (ho : Orphans c) (h : Lost main c) : ∃ d, Steps tm fuel main okR okQ mid true inject c d ∧ d.proc = .dead := by
  by_cases hd : c.proc = .dead
  · exact ⟨c, .refl, hd⟩
  · obtain ⟨b, hb⟩ := ho.killed
    have st := Step.sigcont (tm := tm) (fuel := fuel) (main := main) (okR := okR) (okQ := okQ) (mid := mid) (cont := true) (inject := inject) c b rfl hb hd
    have h3 := after_step ho st
    have h4 := lost_after ho h h3.1
    rcases h4 with h4 | ⟨x, hx, h5⟩
    · cases h4
    · by_cases hi : x.inj = some .trap
      · exact ⟨_, (Steps.tail .refl st).tail (.takeTrap _ main x hx hi), rfl⟩
      · have h6 : x.inj = none := by
          obtain ⟨y, hy, rfl⟩ := cont_some hx
          show (if y.inj = some .stop then none else y.inj) = none
          have hi : (if y.inj = some .stop then none else y.inj) ≠ some .trap := hi
          cases he : y.inj with
          | none => rfl
          | some s =>
            cases s with
            | stop => rfl
            | trap => rw [he] at hi; exact absurd rfl hi
        rcases h5 with h5 | h5
        · exact absurd h5 hi
        · cases hk : x.ctx with
          | own => exact absurd hk h5
          | routine k =>
            obtain ⟨d, h7, h8⟩ := runs_out (tm := tm) (fuel := fuel) (okR := okR) (okQ := okQ) (mid := mid) (cont := true) (inject := inject) k h3.2.1 rfl hx h6 hk
            exact ⟨d, (Steps.tail .refl st).trans h7, h8⟩

end

/-! ### What the threads see -/

section
open Verif.Runtime.Spec (healthy)
open Power.Spec (Image Fits)
open Verif.Session.Spec hiding Follow
variable {tm : List UInt8} {m₀ : Mem} {F slot : Nat → Prop} {fuel main : Nat} {mid : State → QFault → State → Prop} {cont inject : Bool}

/-- The process is as the finished actions left it, or nobody runs. -/
def G (tm : List UInt8) (m₀ : Mem) (F slot : Nat → Prop) (cont inject : Bool) (c : Conf) : Phase → Prop
  | .writing s f => W tm m₀ F slot s c.log ∧ QFault.Ok f
  | .armed r => W tm m₀ F slot c.s c.log ∧ Fits F slot r
  | .waiting r => W tm m₀ F slot c.s c.log ∧ Fits F slot r
  | .killed true => cont = false → inject = true → Quiet c
  | _ => W tm m₀ F slot c.s c.log

theorem G.same {c d : Conf} {p : Phase} (h : G tm m₀ F slot cont inject c p) (hp : ∀ b, p ≠ .killed b) (h1 : d.s = c.s ∨ p.isWriting = true) (h2 : d.log = c.log) : G tm m₀ F slot cont inject d p := by
  cases p <;> simp_all [G, Phase.isWriting]

theorem G_live {c d : Conf} (htl : tm.length = 44) (hI : Image m₀ F slot) (hl : Live main c) (h : G tm m₀ F slot cont inject c c.phase) (hs : Step tm fuel main (Fits F slot) QFault.Ok mid cont inject c d) :
    G tm m₀ F slot cont inject d d.phase := by
  have hk := not_killed hl
  cases hs with
  | spawn u t hr hn => exact h.same hk (.inl rfl) rfl
  | exit u hr hm => exact h.same hk (.inl rfl) rfl
  | halt t x hp hx h1 h2 h3 h4 => exact h.same hk (.inl rfl) rfl
  | haltAll t x hp hx h1 h2 h3 => exact h.same hk (.inl rfl) rfl
  | takeStop t x hp hx h1 => exact h.same hk (.inl rfl) rfl
  | takeTrap t x hx h1 => exact h.same hk (.inl rfl) rfl
  | exec t x k hp hx h1 h2 h3 => exact h.same hk (.inl rfl) rfl
  | trap t x hp hx h1 h2 h3 h4 => exact h.same hk (.inl rfl) rfl
  | trapAlone t x hp hx h1 h2 h3 h4 => exact h.same hk (.inl rfl) rfl
  | begin hp => rw [hp] at h; exact h
  | attach t x hp hx h1 => exact h.same hk (.inl rfl) rfl
  | enter hp hall => rw [hp] at h; exact h
  | arm x r k hp hx hr => rw [hp] at h; exact ⟨h, hr⟩
  | go x r hp hx => rw [hp] at h; exact h
  | answer x r s a hp hx h1 h2 => rw [hp] at h; exact h.1.raw htl hI h.2 h2
  | write x f hp hx h1 h2 => rw [hp] at h; exact ⟨h, h2⟩
  | mid s f s' hp hm => exact h.same hk (.inr (by rw [hp]; rfl)) rfl
  | wrote s f s' e hp hi => rw [hp] at h; exact h.1.interp htl hI h.2 hi
  | leave hp => rcases hp with hp | hp <;> rw [hp] at h <;> exact h
  | restore t x hp hx h1 h2 => exact h.same hk (.inl rfl) rfl
  | detach t x hp hx h1 h2 h3 => exact h.same hk (.inl rfl) rfl
  | home hp hall => rw [hp] at h; exact h
  | kill keep hb hj =>
    show G tm m₀ F slot cont inject (c.kill keep) (.killed c.phase.isWriting)
    cases hp : c.phase with
    | writing s f =>
      intro _ hi
      refine .inr fun t x hx => ?_
      obtain ⟨y, hy, rfl⟩ := kill_some hx
      have ho := hl.all t y hy
      rw [ho.orphan_inj, hj hi t, if_pos rfl]
      have := ho.phase
      rw [hp] at this
      exact this.2.1
    | killed b => exact absurd hp (hk b)
    | armed r => rw [hp] at h; exact h.1
    | waiting r => rw [hp] at h; exact h.1
    | out => rw [hp] at h; exact h
    | scan => rw [hp] at h; exact h
    | inside => rw [hp] at h; exact h
    | release => rw [hp] at h; exact h
  | sigcont b _ hb _ => exact absurd hb (hk b)

theorem G_after {c d : Conf} (ho : Orphans c) (h : G tm m₀ F slot cont inject c c.phase) (hs : Step tm fuel main (Fits F slot) QFault.Ok mid cont inject c d) :
    G tm m₀ F slot cont inject d d.phase := by
  obtain ⟨h1, -, h2, h3, h4⟩ := after_step ho hs
  obtain ⟨b, hb⟩ := ho.killed
  rw [h4]
  rw [hb] at h ⊢
  cases b with
  | true => intro hc hi; subst hc; exact quiet_after (h rfl hi) h1
  | false => show W tm m₀ F slot d.s d.log; rw [h2, h3]; exact h

theorem G_steps {alive : Nat → Bool} {c : Conf} (htl : tm.length = 44) (hI : Image m₀ F slot) (hm : alive main = true)
    (h : Steps tm fuel main (Fits F slot) QFault.Ok mid cont inject (start (State.init m₀) alive) c) : (Live main c ∨ Orphans c) ∧ G tm m₀ F slot cont inject c c.phase := by
  induction h with
  | refl => exact ⟨.inl (live_start hm), init_W htl hI⟩
  | tail _ h2 ih =>
    rcases ih.1 with hl | ho
    · refine ⟨?_, G_live htl hI hl ih.2 h2⟩
      rcases live_step hl h2 with h3 | ⟨keep, rfl, -⟩
      · exact .inl h3
      · exact .inr hl.orphans
    · exact ⟨.inr (after_step ho h2).2.1, G_after ho ih.2 h2⟩

end

end Verif.Power.Run.Slain
