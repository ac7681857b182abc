import Verif.PowerCrowd.Lemmas
import Verif.PowerSession.Props

/-! Property C219: a process on POWER in which many tools are at work, with failures. -/

namespace Verif.Power.Throng

open Verif.Runtime hiding Good Inv area loadPatch_apply_ok demoMem demo_image demo_fits demo_reqs_fit demo_run serve serveAll
open Verif.Runtime.Spec (Patch track trackAll replacement healthy)
open Power.Spec (callDest entryOff body Image Fits)
open Verif.Session (QFault Log noFault noFault_ok interp)
open Verif.Session.Spec hiding Follow
open Verif.Power.Run (W)
open Verif.Power.Run.Spec (Follow)
open Verif.Crowd (Act Phase Conf upd start upd_self upd_ne upd_eq Phase.In Held Held.one upd_In Held.set held_start Conf.Running)

variable {tm : List UInt8}

/-! ### C219 -/

/-- **C219** Whatever tools are at work on a process on POWER at the same time, whichever of their steps fail, wherever they give up or are killed (except in the middle of an action,
and with no single write failing): whenever any thread of the process runs and no internal error is recorded, all calls together go where they should after
the requests that libpulp had accepted up to some moment. No thread ever sees some functions with and some without a patch. -/
theorem C219_running_threads {m₀ : Mem} {F slot : Nat → Prop} (htl : tm.length = 44) (hI : Image m₀ F slot) {fuel main : Nat} {alive : Nat → Prop} (hm : alive main)
    {c : Conf} (h : Steps tm fuel main (ActOk F slot) (start (State.init m₀) alive) c)
    {t : Nat} (ht : c.Running t) (hh : healthy c.s.err) :
    ∃ before later, c.log = before ++ later ∧ Follow tm m₀ F c.s.mem (notes [] before) := by
  have hg := G_steps htl hI hm h
  have hh' := held_steps (held_start hm) h
  have hq : ∀ i s a, c.phase i ≠ .busy s a := by
    intro i s a hb
    have := hh'.all i (by rw [hb]; trivial) t ht.1
    rw [ht.2] at this; cases this
  obtain ⟨l, ⟨later, hl⟩, hfo⟩ := (hg.calm hq).seen hh
  exact ⟨l, later, hl.symm, hfo⟩

/-- **C219** When no queue is left over, that is after all requests accepted so far. -/
theorem C219_nothing_left {m₀ : Mem} {F slot : Nat → Prop} (htl : tm.length = 44) (hI : Image m₀ F slot) {fuel main : Nat} {alive : Nat → Prop} (hm : alive main)
    {c : Conf} (h : Steps tm fuel main (ActOk F slot) (start (State.init m₀) alive) c)
    {t : Nat} (ht : c.Running t) (hh : healthy c.s.err) (hn : c.s.q.num = 0) (hz : c.s.q.size = 0) :
    Follow tm m₀ F c.s.mem (notes [] c.log) := by
  have hg := G_steps htl hI hm h
  have hh' := held_steps (held_start hm) h
  have hq : ∀ i s a, c.phase i ≠ .busy s a := by
    intro i s a hb
    have := hh'.all i (by rw [hb]; trivial) t ht.1
    rw [ht.2] at this; cases this
  have hw := hg.calm hq
  exact Run.Inv.follow htl hI (hw.k.inv ⟨hn, hz, hw.k.ver⟩) hh

/-- A tool is killed after libpulp has accepted a patch, before the queue is executed. Another tool then executes the queue. -/
def demoPatchReq : Request := .apply demoWorld (.ok (demoPatch 1 libA [0x1000, 0x2000] [] []))

theorem Steps.more {fuel main ok} {c d e : Conf} (h : Steps tm fuel main ok c d) (h' : Step tm fuel main ok d e) : Steps tm fuel main ok c e := .tail h h'

theorem demo_trace : ∃ c : Conf, Steps demoT 10 1 (ActOk demoF demoSlot) (start (State.init demoMem) (fun t => t = 1)) c ∧
    c.Running 1 ∧ c.s.err = 0 ∧ c.s.q.num = 0 ∧ c.s.q.size = 0 ∧ c.log = [(demoPatchReq, 0)] ∧ callDest demoT 8 c.s.mem 0x2000 = some 0x700001 := by
  have e : ((Run.raw demoT 10 (State.init demoMem) demoPatchReq).bind fun p => (interp noFault p.1).map fun q =>
      (p.2, q.1.err, q.1.q.num, q.1.q.size, callDest demoT 8 q.1.mem 0x2000)) = some (0, 0, 0, 0, some 0x700001) := by decide +kernel
  cases h1 : Run.raw demoT 10 (State.init demoMem) demoPatchReq with
  | none => rw [h1] at e; cases e
  | some p =>
    obtain ⟨s1, a1⟩ := p
    rw [h1, Option.bind_some] at e
    cases h2 : interp noFault s1 with
    | none => rw [h2] at e; cases e
    | some q =>
      obtain ⟨s2, a2⟩ := q
      rw [h2] at e
      simp only [Option.map_some, Option.some.injEq, Prod.mk.injEq] at e
      obtain ⟨rfl, e1, e2, e3, e4⟩ := e
      have hfit : Fits demoF demoSlot demoPatchReq := demo_fits _ _ _ _ _ (by simp [demoF]) (by simp)
      have f0 := Steps.refl (tm := demoT) (fuel := 10) (main := 1) (ok := ActOk demoF demoSlot) (c := start (State.init demoMem) (fun t => t = 1))
      have f1 := f0.more (Step.begin _ 7 rfl)
      have f2 := f1.more (Step.attach _ 7 1 rfl rfl rfl)
      have f3 := f2.more (Step.enter _ 7 rfl (by rintro t rfl; rfl))
      have f4 := f3.more (Step.act _ 7 (.ask demoPatchReq) rfl hfit)
      have f5 := f4.more (Step.done _ 7 (State.init demoMem) (.ask demoPatchReq) s1 [(demoPatchReq, 0)] rfl (by simp [actRun, h1]))
      have f6 := f5.more (Step.die _ 7 (fun s a hb => by simp [upd_self] at hb))
      have f7 := f6.more (Step.begin _ 8 rfl)
      have f8 := f7.more (Step.attach _ 8 1 rfl rfl rfl)
      have f9 := f8.more (Step.enter _ 8 rfl (by rintro t rfl; rfl))
      have f10 := f9.more (Step.act _ 8 (.queue noFault) rfl noFault_ok)
      have f11 := f10.more (Step.done _ 8 s1 (.queue noFault) s2 [] rfl (by simp [actRun, h2]))
      have f12 := f11.more (Step.die _ 8 (fun s a hb => by simp [upd_self] at hb))
      exact ⟨_, f12, ⟨rfl, rfl⟩, e1, e2, e3, rfl, e4⟩

example : ∃ c : Conf, c.log = [(demoPatchReq, 0)] ∧ Follow demoT demoMem demoF c.s.mem (notes [] c.log) ∧
    ∃ before later, c.log = before ++ later ∧ Follow demoT demoMem demoF c.s.mem (notes [] before) := by
  obtain ⟨c, h, hr, he, hn, hz, hl, -⟩ := demo_trace
  exact ⟨c, hl, C219_nothing_left demo_t demo_image (alive := fun t => t = 1) rfl h hr (.inl he) hn hz, C219_running_threads demo_t demo_image (alive := fun t => t = 1) rfl h hr (.inl he)⟩

end Verif.Power.Throng
