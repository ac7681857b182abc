import Verif.Killed.Props

/-! C143: which parts of a patch threads can see, in general. -/

namespace Verif.Killed

open Verif.Runtime
open Verif.Runtime.Spec
open Verif.Session
open Verif.Session.Spec
open Verif.Killed.Spec
open Verif.X86.Spec (callDest body)

variable {fuel main : Nat} {okR : Request → Prop} {okQ : QFault → Prop} {mid : State → QFault → State → Prop} {cont inject : Bool}

/-- A thread that the tool has stopped. -/
def held : Th := ⟨true, some .stop, false, none, .own⟩

theorem upd_twice {α : Type} (f : Nat → α) (k : Nat) (v w : α) : upd (upd f k v) k w = upd f k w := by
  funext i
  simp only [upd]
  split <;> rfl

/-- The tool stops one thread after the other. -/
theorem stop_all (ts : List Nat) : ∀ c : Conf, ts.Nodup → c.phase = .scan → c.proc = .going → (∀ t ∈ ts, c.th t = some free) →
    Steps fuel main okR okQ mid cont inject c { c with th := fun t => if t ∈ ts then some held else c.th t } := by
  induction ts with
  | nil => intro c _ _ _ _; simpa using Steps.refl
  | cons t ts ih =>
    intro c hnd hp hg hf
    obtain ⟨hn, hnd⟩ := List.nodup_cons.mp hnd
    have f0 : Steps fuel main okR okQ mid cont inject c c := .refl
    have f1 := f0.tail (.attach c t free hp (hf t (by simp)) rfl)
    have f2 := f1.tail (.halt _ t _ hg (upd_self ..) rfl rfl rfl rfl)
    simp only [upd_twice] at f2
    refine f2.trans ?_
    have := ih { c with th := upd c.th t (some held) } hnd hp hg (fun u hu => by
      have : u ≠ t := by rintro rfl; exact hn hu
      show upd c.th t (some held) u = _
      rw [upd_ne _ _ this]
      exact hf u (by simp [hu]))
    have e : (fun u => if u ∈ t :: ts then some held else c.th u) = fun u => if u ∈ ts then some held else upd c.th t (some held) u := by
      funext u
      by_cases hu : u ∈ ts
      · simp [hu]
      · by_cases e : u = t
        · subst e; simp [upd, hu]
        · simp [upd, hu, e]
    rw [e]
    exact this

/-- Before the tool is killed: all threads are stopped, and it has made `j` of the changes that the request amounts to. -/
theorem in_the_middle {s s' : State} {alive : Nat → Bool} (ts : List Nat) (hts : ∀ t, alive t = true ↔ t ∈ ts) (hnd : ts.Nodup) (hm : main ∈ ts)
    (r : Request) (hr : okR r) (f : QFault) (hf : okQ f) (a : Nat) (h : raw fuel s r = some (s', a)) (j : Nat) :
    ∃ c : Conf, Steps fuel main okR okQ between cont inject (start s alive) c ∧ c.phase = .writing s' f ∧ c.proc = .going ∧ c.log = [(r, a)] ∧
      c.s = { s' with mem := ((InsnQueue.interpret (InsnQueue.fetch s'.q).1 f.write).1.take j).foldl InsnQueue.Event.apply s'.mem } ∧
      ∀ t ∈ ts, t ≠ main → c.th t = some held := by
  have f0 : Steps fuel main okR okQ between cont inject (start s alive) _ := .refl
  have f1 := f0.tail (.begin _ rfl)
  have f2 := f1.trans (stop_all ts _ hnd rfl rfl (fun t ht => by simp [start, (hts t).mpr ht]))
  have f3 := f2.tail (.enter _ rfl (by
    intro t x hx
    simp only at hx
    split at hx
    · cases hx; exact ⟨rfl, nofun⟩
    · rename_i hn
      have : alive t ≠ true := fun e => hn ((hts t).mp e)
      simp [start, this] at hx))
  have f6 := f3.tail (.arm _ held r 0 rfl (by simp [hm]) hr)
  have f7 := f6.tail (.go _ _ r rfl (upd_self ..))
  have f8 := f7.tail (.trap _ main _ rfl (upd_self ..) rfl rfl rfl rfl)
  have f9 := f8.tail (.answer _ _ r s' a rfl (upd_self ..) rfl h)
  have f10 := f9.tail (.write _ _ f rfl (upd_self ..) rfl hf)
  have f11 := f10.tail (.mid _ s' f _ rfl ⟨j, rfl⟩)
  refine ⟨_, f11, rfl, rfl, rfl, rfl, fun t ht hne => ?_⟩
  simp only [upd, if_neg hne, if_pos ht]

/-- **C143** (negation, in general) Whatever the process is and whatever was done to it before, and for every request that libpulp has served, and every number `j`: all threads but the main one can
run with the first `j` of the changes and without the others, if the tool is killed then and somebody sends `SIGCONT`, or the kernel forgets the signals. -/
theorem C143_any_part {s s' : State} {alive : Nat → Bool} (ts : List Nat) (hts : ∀ t, alive t = true ↔ t ∈ ts) (hnd : ts.Nodup) (hm : main ∈ ts)
    (r : Request) (hr : okR r) (f : QFault) (hf : okQ f) (a : Nat) (h : raw fuel s r = some (s', a)) (j : Nat) (cont inject : Bool) (hc : cont = true ∨ inject = false) :
    ∃ c : Conf, Steps fuel main okR okQ between cont inject (start s alive) c ∧ c.log = [(r, a)] ∧ (∀ t ∈ ts, t ≠ main → c.Running t) ∧
      c.s = { s' with mem := ((InsnQueue.interpret (InsnQueue.fetch s'.q).1 f.write).1.take j).foldl InsnQueue.Event.apply s'.mem } := by
  obtain ⟨c, h1, h2, h3, h4, h5, h6⟩ := in_the_middle (cont := cont) (inject := inject) (okQ := okQ) ts hts hnd hm r hr f hf a h j
  cases inject with
  | false =>
    have g1 := h1.tail (.kill c (fun _ => false) (fun b => by rw [h2]; nofun) nofun)
    refine ⟨_, g1, h4, fun t ht hne => ⟨h3, free, ?_, rfl, rfl, rfl⟩, h5⟩
    show (c.th t).map (Th.orphan false) = some free
    rw [h6 t ht hne]; rfl
  | true =>
    have hct : cont = true := by rcases hc with hc | hc; exact hc; cases hc
    have g1 := h1.tail (.kill c (fun _ => true) (fun b => by rw [h2]; nofun) (fun _ _ => rfl))
    have g2 := g1.tail (.sigcont _ _ hct rfl (by show c.proc ≠ _; rw [h3]; nofun))
    refine ⟨_, g2, h4, fun t ht hne => ⟨rfl, free, ?_, rfl, rfl, rfl⟩, h5⟩
    show ((c.th t).map (Th.orphan true)).map Th.cont = some free
    rw [h6 t ht hne]; rfl

/-- A patch for two functions, with two threads: the first function patched, the second not. -/
example : ∃ c : Conf, Steps 10 1 (Fits demoMem demoF demoSlot) QFault.Ok between true true (start (State.init demoMem) two) c ∧ c.Running 2 ∧
    callDest c.s.mem 0x1000 = some 0x700001 ∧ callDest c.s.mem 0x2000 = some 0x2002 := by
  have e : ((raw 10 (State.init demoMem) demoPatchReq).map fun p =>
      let m := ((InsnQueue.interpret (InsnQueue.fetch p.1.q).1 noFault.write).1.take 1).foldl InsnQueue.Event.apply p.1.mem
      (callDest m 0x1000, callDest m 0x2000)) = some (some 0x700001, some 0x2002) := by decide +kernel
  cases h1 : raw 10 (State.init demoMem) demoPatchReq with
  | none => rw [h1] at e; cases e
  | some p =>
    obtain ⟨s1, a1⟩ := p
    rw [h1] at e
    simp only [Option.map_some, Option.some.injEq, Prod.mk.injEq] at e
    obtain ⟨e2, e3⟩ := e
    obtain ⟨c, h2, -, h3, h4⟩ := C143_any_part (main := 1) (okR := Fits demoMem demoF demoSlot) (okQ := QFault.Ok) (alive := two) [1, 2]
      (fun t => by simp [two]) (by decide) (by simp) demoPatchReq (demo_fits _ _ _ _ _ (by simp [demoF]) (by simp)) noFault noFault_ok a1 h1 1 true true (.inl rfl)
    exact ⟨c, h2, h3 2 (by simp) (by decide), by rw [h4]; exact e2, by rw [h4]; exact e3⟩

end Verif.Killed
