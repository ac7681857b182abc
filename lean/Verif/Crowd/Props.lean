import Verif.Crowd.Lemmas
import Verif.Session.Props

/-! Theorems on a process in which many tools are at work, with failures. -/

namespace Verif.Crowd

open Verif.Runtime
open Verif.Runtime.Spec
open Verif.Session
open Verif.Session.Spec
open Verif.X86.Spec (callDest body)

/-! ### C137 -/

/-- **C137** Whatever tools are at work on a process at the same time, whichever of their steps fail, wherever they give up or are killed (except in the middle of an action,
and with no single write failing): whenever any thread of the process runs and no internal error is recorded, all calls together go where they should after
the requests that libpulp had accepted up to some moment. No thread ever sees some functions with and some without a patch. -/
theorem C137_running_threads {m₀ : Mem} {F slot : Nat → Prop} (hI : Image m₀ F slot) {fuel main : Nat} {alive : Nat → Prop} (hm : alive main)
    {c : Conf} (h : Steps fuel main (Act.Ok m₀ F slot) (start (State.init m₀) alive) c)
    {t : Nat} (ht : c.Running t) (hh : healthy c.s.err) :
    ∃ before later, c.log = before ++ later ∧ Follow m₀ F c.s.mem (notes [] before) := by
  have hg := G_steps hI hm h
  have hh' := held_steps (held_start hm) h
  have hq : ∀ i s a, c.phase i ≠ .busy s a := by
    intro i s a hb
    have := hh'.all i (by rw [hb]; trivial) t ht.1
    rw [ht.2] at this; cases this
  obtain ⟨l, ⟨later, hl⟩, hfo⟩ := (hg.calm hq).seen hh
  exact ⟨l, later, hl.symm, hfo⟩

/-- **C137** When no queue is left over, that is after all requests accepted so far. -/
theorem C137_nothing_left {m₀ : Mem} {F slot : Nat → Prop} (hI : Image m₀ F slot) {fuel main : Nat} {alive : Nat → Prop} (hm : alive main)
    {c : Conf} (h : Steps fuel main (Act.Ok m₀ F slot) (start (State.init m₀) alive) c)
    {t : Nat} (ht : c.Running t) (hh : healthy c.s.err) (hn : c.s.q.num = 0) (hz : c.s.q.size = 0) :
    Follow m₀ F c.s.mem (notes [] c.log) := by
  have hg := G_steps hI hm h
  have hh' := held_steps (held_start hm) h
  have hq : ∀ i s a, c.phase i ≠ .busy s a := by
    intro i s a hb
    have := hh'.all i (by rw [hb]; trivial) t ht.1
    rw [ht.2] at this; cases this
  have hw := hg.calm hq
  exact Session.Inv.follow hI (hw.k.inv ⟨hn, hz, hw.k.ver⟩) hh

/-- A tool is killed after libpulp has accepted a patch, before the queue is executed. Another tool then executes the queue. -/
def demoPatchReq : Request := .apply demoWorld (.ok (demoPatch 1 libA [0x1000, 0x2000] [] []))

theorem Steps.more {fuel main ok} {c d e : Conf} (h : Steps fuel main ok c d) (h' : Step fuel main ok d e) : Steps fuel main ok c e := .tail h h'

theorem demo_trace : ∃ c : Conf, Steps 10 1 (Act.Ok demoMem demoF demoSlot) (start (State.init demoMem) (fun t => t = 1)) c ∧
    c.Running 1 ∧ c.s.err = 0 ∧ c.s.q.num = 0 ∧ c.s.q.size = 0 ∧ c.log = [(demoPatchReq, 0)] ∧ callDest c.s.mem 0x2000 = some 0x700001 := by
  have e : ((raw 10 (State.init demoMem) demoPatchReq).bind fun p => (interp noFault p.1).map fun q =>
      (p.2, q.1.err, q.1.q.num, q.1.q.size, callDest q.1.mem 0x2000)) = some (0, 0, 0, 0, some 0x700001) := by decide +kernel
  cases h1 : raw 10 (State.init demoMem) demoPatchReq with
  | none => rw [h1] at e; cases e
  | some p =>
    obtain ⟨s1, a1⟩ := p
    rw [h1, Option.bind_some] at e
    cases h2 : interp noFault s1 with
    | none => rw [h2] at e; cases e
    | some q =>
      obtain ⟨s2, a2⟩ := q
      rw [h2] at e
      simp only [Option.map_some, Option.some.injEq, Prod.mk.injEq] at e
      obtain ⟨rfl, e1, e2, e3, e4⟩ := e
      have hfit : Fits demoMem demoF demoSlot demoPatchReq := demo_fits _ _ _ _ _ (by simp [demoF]) (by simp)
      have f0 := Steps.refl (fuel := 10) (main := 1) (ok := Act.Ok demoMem demoF demoSlot) (c := start (State.init demoMem) (fun t => t = 1))
      have f1 := f0.more (Step.begin _ 7 rfl)
      have f2 := f1.more (Step.attach _ 7 1 rfl rfl rfl)
      have f3 := f2.more (Step.enter _ 7 rfl (by rintro t rfl; rfl))
      have f4 := f3.more (Step.act _ 7 (.ask demoPatchReq) rfl hfit)
      have f5 := f4.more (Step.done _ 7 (State.init demoMem) (.ask demoPatchReq) s1 [(demoPatchReq, 0)] rfl (by simp [Act.run, h1]))
      have f6 := f5.more (Step.die _ 7 (fun s a hb => by simp [upd_self] at hb))
      have f7 := f6.more (Step.begin _ 8 rfl)
      have f8 := f7.more (Step.attach _ 8 1 rfl rfl rfl)
      have f9 := f8.more (Step.enter _ 8 rfl (by rintro t rfl; rfl))
      have f10 := f9.more (Step.act _ 8 (.queue noFault) rfl noFault_ok)
      have f11 := f10.more (Step.done _ 8 s1 (.queue noFault) s2 [] rfl (by simp [Act.run, h2]))
      have f12 := f11.more (Step.die _ 8 (fun s a hb => by simp [upd_self] at hb))
      exact ⟨_, f12, ⟨rfl, rfl⟩, e1, e2, e3, rfl, e4⟩

example : ∃ c : Conf, c.log = [(demoPatchReq, 0)] ∧ Follow demoMem demoF c.s.mem (notes [] c.log) ∧
    ∃ before later, c.log = before ++ later ∧ Follow demoMem demoF c.s.mem (notes [] before) := by
  obtain ⟨c, h, hr, he, hn, hz, hl, -⟩ := demo_trace
  exact ⟨c, hl, C137_nothing_left demo_image (alive := fun t => t = 1) rfl h hr (.inl he) hn hz, C137_running_threads demo_image (alive := fun t => t = 1) rfl h hr (.inl he)⟩

end Verif.Crowd
