import Verif.Session.Lemmas
import Verif.Runtime.Props

/-! Properties C130 to C132: what the result of `ulp trigger` says about the process, with failures of the tool at any step. -/

namespace Verif.Session

open Verif.Runtime
open Verif.Runtime.Spec
open Verif.Session.Spec
open Verif.X86.Spec (callDest body)

/-! ### runs for the examples -/

def noFault : QFault := { found := true, header := true, body := none, write := fun _ => none, reset := none }

def demoTry : Try :=
  { before := [], hijack := 0, world := demoWorld, name := true, runRevert := .done, queueRevert := noFault,
    metadata := true, seccomp := none, noMem := none, rax := 7, runApply := .done, queueApply := noFault, restore := 0 }

/-- Applying patch `n` to the functions `fs` of libA, all attempts being like `t`. -/
def demoSession (n : UInt8) (fs : List Nat) (t : Nat → Try) : Session :=
  { lib := none, patch := some (demoPatch n libA fs [] []), retries := 3, env := t }

/-- The first attempt finds the process busy, and somebody else applies patch 5 before the second. -/
def demoEnv : Nat → Try
  | 0 => { demoTry with world := { demoWorld with busy := true } }
  | _ => { demoTry with before := [.apply demoWorld (.ok (demoPatch 5 libA [0x2000] [] []))] }

theorem noFault_ok : QFault.Ok noFault := ⟨fun _ => rfl, by simp [noFault]⟩

theorem demoTry_ok : Try.Ok demoMem demoF demoSlot demoTry :=
  ⟨by simp [demoTry], by simp [Ran.Ok, demoTry], noFault_ok, by simp [demoTry], by simp [demoTry], by simp [Ran.Ok, demoTry], noFault_ok⟩

theorem busy_fits (n lib fs deps) (hfs : ∀ f ∈ fs, demoF f) :
    Fits demoMem demoF demoSlot (.apply { demoWorld with busy := true } (.ok (demoPatch n lib fs deps []))) :=
  demo_fits n lib fs deps [] hfs (by simp)

theorem demoEnv_ok (n fs) (hfs : ∀ f ∈ fs, demoF f) : Session.Ok demoMem demoF demoSlot (demoSession n fs demoEnv) := by
  refine ⟨?_, ?_⟩
  · intro i
    cases i with
    | zero => exact ⟨demoTry_ok.before, demoTry_ok.runRevert, noFault_ok, demoTry_ok.seccomp, demoTry_ok.noMem, demoTry_ok.runApply, noFault_ok⟩
    | succ i =>
      refine ⟨?_, demoTry_ok.runRevert, noFault_ok, demoTry_ok.seccomp, demoTry_ok.noMem, demoTry_ok.runApply, noFault_ok⟩
      intro r hr
      simp only [demoSession, demoEnv, List.mem_singleton] at hr
      subst hr
      exact demo_fits _ _ _ _ _ (by simp [demoF]) (by simp)
  · intro m hm i
    simp only [demoSession, Option.some.injEq] at hm
    subst hm
    cases i with
    | zero => exact busy_fits n libA fs [] hfs
    | succ i => exact demo_fits n libA fs [] [] hfs (by simp)

/-- All attempts alike, with some failures in executing the queue. -/
theorem same_ok (n fs) (q : QFault) (hq : QFault.Ok q) (hfs : ∀ f ∈ fs, demoF f) :
    Session.Ok demoMem demoF demoSlot (demoSession n fs fun _ => { demoTry with queueApply := q }) := by
  refine ⟨fun _ => ⟨demoTry_ok.before, demoTry_ok.runRevert, noFault_ok, demoTry_ok.seccomp, demoTry_ok.noMem, demoTry_ok.runApply, hq⟩, ?_⟩
  intro m hm i
  simp only [demoSession, Option.some.injEq] at hm
  subst hm
  exact demo_fits n libA fs [] [] hfs (by simp)

/-! ### C130 -/

/-- **C130** (partial: the tool knows where the queue is, see `C130_unknown_queue`; single writes do not fail, see `C07_failed_write_reported_as_success`) Whatever runs of `ulp trigger` a process has seen before, with failures anywhere, other users in between, and any results: when a run
reports success then the last thing libpulp served was the run's own request, answered with 0, nothing is left to be executed, and,
unless an internal error is recorded, all calls go where they should after all requests that libpulp accepted. -/
theorem C130_success_in_force_partial {m₀ : Mem} {F slot : Nat → Prop} (hI : Image m₀ F slot) (fuel : Nat) (xs : List Session)
    (hxs : ∀ x ∈ xs, Session.Ok m₀ F slot x) (s : State) (log : Log) (results : List Int)
    (h : sessions fuel (State.init m₀) xs = some (s, log, results))
    (x : Session) (hx : Session.Ok m₀ F slot x) (hfound : Session.Found x) (s' : State) (log' : Log)
    (h' : session fuel s x = some (s', log', 0)) :
    (∃ l r, log' = l ++ [(r, 0)] ∧ Session.Goal x r) ∧ s'.q.num = 0 ∧ s'.q.size = 0 ∧
    (healthy s'.err → Follow m₀ F s'.mem (notes [] (log ++ log'))) := by
  have hw := sessions_W hI xs hxs _ [] _ _ _ (init_W hI) h
  have hd := session_W hI hx hw h'
  obtain ⟨l, r, h1, h2, h3⟩ := hd.ok rfl hfound
  refine ⟨⟨l, r, h1, h2⟩, h3.num, h3.size, fun hh => ?_⟩
  exact Inv.follow hI (hd.w.k.inv h3) hh

/-- When the patch replaces functions, their calls go to the replacements. -/
theorem C130_patched_partial {m₀ : Mem} {F slot : Nat → Prop} (hI : Image m₀ F slot) (fuel : Nat) (xs : List Session)
    (hxs : ∀ x ∈ xs, Session.Ok m₀ F slot x) (s : State) (log : Log) (results : List Int)
    (h : sessions fuel (State.init m₀) xs = some (s, log, results))
    (x : Session) (hx : Session.Ok m₀ F slot x) (hfound : Session.Found x) (s' : State) (log' : Log)
    (h' : session fuel s x = some (s', log', 0)) (hh : healthy s'.err) (m : Meta) (hm : x.patch = some m) (ht : m.type = 1)
    (pre post : List UnitM) (u : UnitM) (hu : m.units = pre ++ u :: post) :
    ∃ i, ∀ f, f = (x.env i).world.oldSym (getBasename m.lib) u.oldName u.oldAddr → F f →
      (∀ v ∈ post, (x.env i).world.oldSym (getBasename m.lib) v.oldName v.oldAddr ≠ f) →
      callDest s'.mem f = some ((x.env i).world.newSym u.newName) := by
  obtain ⟨⟨l, r, h1, h2⟩, -, -, h3⟩ := C130_success_in_force_partial hI fuel xs hxs s log results h x hx hfound s' log' h'
  have h3 := h3 hh
  rcases h2 with ⟨m', i, hm', rfl⟩ | ⟨hn, -⟩
  · rw [hm] at hm'
    injection hm' with hm'
    subst hm'
    refine ⟨i, fun f hf hF hpost => ?_⟩
    rw [h3 f hF, h1, ← List.append_assoc, notes_append]
    have : notes (notes [] (log ++ l)) [(Request.apply (x.env i).world (.ok m), 0)] =
        patchOf (x.env i).world m :: notes [] (log ++ l) := by simp [notes, track, ht]
    rw [this]
    have hlast : (((patchOf (x.env i).world m).repl.filter (fun u => u.1 = f)).getLast?) = some (f, (x.env i).world.newSym u.newName) := by
      simp only [patchOf, hu, List.map_append, List.map_cons, List.filter_append]
      have hnil : List.filter (fun u : Nat × Nat => decide (u.1 = f)) (post.map fun u =>
          ((x.env i).world.oldSym (getBasename m.lib) u.oldName u.oldAddr, (x.env i).world.newSym u.newName)) = [] := by
        rw [List.filter_eq_nil_iff]
        intro v hv
        obtain ⟨w, hw, rfl⟩ := List.mem_map.mp hv
        simpa using hpost w hw
      rw [List.filter_cons, if_pos (by simp [hf]), hnil]
      simp [← hf]
    simp only [replacement, hlast, Option.getD_some]
  · rw [hm] at hn
    simp at hn

/-- Not in general: where the tool does not find the queue (`EOLDLIBPULP`), it reports success although no call is redirected. -/
theorem C130_unknown_queue : ∃ (s' : State) (log : Log),
    session 10 (State.init demoMem) (demoSession 1 [0x1000] fun _ => { demoTry with queueApply := { noFault with found := false } }) = some (s', log, 0) ∧
    callDest s'.mem 0x1000 = some 0x1002 ∧ checkApplied s' [1] = 1 := by
  have h : (session 10 (State.init demoMem) (demoSession 1 [0x1000] fun _ => { demoTry with queueApply := { noFault with found := false } })).map
      (fun p => (p.2.2, callDest p.1.mem 0x1000, checkApplied p.1 [1])) = some (0, some 0x1002, 1) := by decide +kernel
  cases hs : session 10 (State.init demoMem) (demoSession 1 [0x1000] fun _ => { demoTry with queueApply := { noFault with found := false } }) with
  | none => simp [hs] at h
  | some p =>
    obtain ⟨s, l, r⟩ := p
    simp only [hs, Option.map_some, Option.some.injEq, Prod.mk.injEq] at h
    obtain ⟨rfl, h2⟩ := h
    exact ⟨s, l, rfl, h2⟩

/-- A busy process, another user, and then success: what the theorem says about it. -/
theorem demo_success : ∃ s' log', session 10 (State.init demoMem) (demoSession 1 [0x1000] demoEnv) = some (s', log', 0) ∧
    s'.err = ENONE ∧ log'.map (fun e => e.2) = [EAGAIN, 0, 0] := by
  have h : (session 10 (State.init demoMem) (demoSession 1 [0x1000] demoEnv)).map
      (fun p => (p.2.2, p.1.err, p.2.1.map fun e => e.2)) = some (0, ENONE, [EAGAIN, 0, 0]) := by decide +kernel
  cases hs : session 10 (State.init demoMem) (demoSession 1 [0x1000] demoEnv) with
  | none => simp [hs] at h
  | some p =>
    obtain ⟨s, l, r⟩ := p
    simp only [hs, Option.map_some, Option.some.injEq, Prod.mk.injEq] at h
    obtain ⟨rfl, h2, h3⟩ := h
    exact ⟨s, l, rfl, h2, h3⟩

example : ∃ s' log', session 10 (State.init demoMem) (demoSession 1 [0x1000] demoEnv) = some (s', log', 0) ∧
    callDest s'.mem 0x1000 = some 0x700001 := by
  obtain ⟨s', log', h, he, -⟩ := demo_success
  refine ⟨s', log', h, ?_⟩
  have hf : Session.Found (demoSession 1 [0x1000] demoEnv) := by
    intro i
    cases i <;> exact ⟨rfl, rfl⟩
  obtain ⟨i, hi⟩ := C130_patched_partial demo_image 10 [] (by simp) (State.init demoMem) [] [] rfl _ (demoEnv_ok 1 [0x1000] (by simp [demoF])) hf
    s' log' h (Or.inl he) (demoPatch 1 libA [0x1000] [] []) rfl rfl [] [] { oldName := [], newName := [1], oldAddr := 0x1000 } rfl
  have : callDest s'.mem 0x1000 = some ((((demoSession 1 [0x1000] demoEnv).env i).world.newSym [1])) := by
    refine hi 0x1000 ?_ (Or.inl rfl) (by simp)
    cases i <;> rfl
  rw [this]
  cases i <;> rfl

/-! ### C131 -/

/-- **C131** Whatever runs of `ulp trigger` a process has seen, with failures at any step but in single writes, other users in between, and any results:
unless an internal error is recorded, all calls together go where they should after the requests that libpulp had accepted up to some
moment. Patches are in force as a whole or not at all, and in order. -/
theorem C131_all_or_nothing {m₀ : Mem} {F slot : Nat → Prop} (hI : Image m₀ F slot) (fuel : Nat) (xs : List Session)
    (hxs : ∀ x ∈ xs, Session.Ok m₀ F slot x) (s : State) (log : Log) (results : List Int)
    (h : sessions fuel (State.init m₀) xs = some (s, log, results)) (hh : healthy s.err) :
    ∃ before later, log = before ++ later ∧ Follow m₀ F s.mem (notes [] before) := by
  have hw := sessions_W hI xs hxs _ [] _ _ _ (init_W hI) h
  obtain ⟨l, ⟨later, hl⟩, hf⟩ := hw.seen hh
  exact ⟨l, later, by simpa using hl.symm, hf⟩

/-- When nothing is left to be executed, that is after all requests. -/
theorem C131_nothing_left {m₀ : Mem} {F slot : Nat → Prop} (hI : Image m₀ F slot) (fuel : Nat) (xs : List Session)
    (hxs : ∀ x ∈ xs, Session.Ok m₀ F slot x) (s : State) (log : Log) (results : List Int)
    (h : sessions fuel (State.init m₀) xs = some (s, log, results)) (hh : healthy s.err) (hn : s.q.num = 0) (hz : s.q.size = 0) :
    Follow m₀ F s.mem (notes [] log) := by
  have hw := sessions_W hI xs hxs _ [] _ _ _ (init_W hI) h
  exact Inv.follow hI (hw.k.inv ⟨hn, hz, hw.k.ver⟩) hh

/-- With one attempt only no internal error is recorded, and the theorem applies: a patch accepted, its queue not read. -/
def lostRead : Session :=
  { demoSession 1 [0x1000, 0x2000] fun _ => { demoTry with queueApply := { noFault with header := false } } with retries := 1 }

example : ∃ s log, sessions 10 (State.init demoMem) [lostRead] = some (s, log, [(EINSNQ : Int)]) ∧
    ∃ before later, log = before ++ later ∧ Follow demoMem demoF s.mem (notes [] before) := by
  have h : (sessions 10 (State.init demoMem) [lostRead]).map (fun p => (p.2.2, p.1.err)) = some ([(EINSNQ : Int)], ENONE) := by decide +kernel
  have hq : QFault.Ok { noFault with header := false } := ⟨fun _ => rfl, by simp [noFault]⟩
  have hok : Session.Ok demoMem demoF demoSlot lostRead := by
    have := same_ok 1 [0x1000, 0x2000] _ hq (by simp [demoF])
    exact ⟨this.tries, this.fits⟩
  cases hs : sessions 10 (State.init demoMem) [lostRead] with
  | none => simp [hs] at h
  | some p =>
    obtain ⟨s, l, r⟩ := p
    simp only [hs, Option.map_some, Option.some.injEq, Prod.mk.injEq] at h
    obtain ⟨rfl, he⟩ := h
    exact ⟨s, l, rfl, C131_all_or_nothing demo_image 10 [lostRead] (by simpa using hok) s l _ hs (Or.inl he)⟩

/-! ### C132 -/

/-- **C132** (partial: for runs that only apply or revert one patch, with nobody else using the process and no failure after
libpulp was asked; see `C132_failed_but_in_force`) A run that reports failure has changed nothing in the process, unless an internal error is recorded. -/
theorem C132_failure_changes_nothing_partial {m₀ : Mem} {F slot : Nat → Prop} (hI : Image m₀ F slot) (fuel : Nat) (xs : List Session)
    (hxs : ∀ x ∈ xs, Session.Ok m₀ F slot x) (s : State) (log : Log) (results : List Int)
    (h : sessions fuel (State.init m₀) xs = some (s, log, results)) (hn : s.q.num = 0) (hz : s.q.size = 0)
    (x : Session) (hx : Session.Ok m₀ F slot x) (hl : x.lib = none) (m : Meta) (hm : x.patch = some m)
    (hc : ∀ i, Try.Calm (x.env i)) (s' : State) (log' : Log) (res : Int)
    (h' : session fuel s x = some (s', log', res)) (hres : res ≠ 0) (hh : healthy s'.err) : s' = s := by
  have hw := sessions_W hI xs hxs _ [] _ _ _ (init_W hI) h
  exact (loop_calm hI hx hl hm hc _ _ _ s _ (-1) s' log' res hw (by decide) h').2 ⟨hn, hz, hw.k.ver⟩ hres hh

/-- A process that stays busy, in all three attempts. -/
example : ∃ s' log', session 10 (State.init demoMem) (demoSession 1 [0x1000] fun _ => { demoTry with world := { demoWorld with busy := true } }) =
    some (s', log', (EAGAIN : Int)) ∧ log'.map (fun e => e.2) = [EAGAIN, EAGAIN, EAGAIN] ∧ s' = State.init demoMem := by
  have h : (session 10 (State.init demoMem) (demoSession 1 [0x1000] fun _ => { demoTry with world := { demoWorld with busy := true } })).map
      (fun p => (p.2.2, p.1.err, p.2.1.map fun e => e.2)) = some ((EAGAIN : Int), ENONE, [EAGAIN, EAGAIN, EAGAIN]) := by decide +kernel
  have hok : Session.Ok demoMem demoF demoSlot (demoSession 1 [0x1000] fun _ => { demoTry with world := { demoWorld with busy := true } }) := by
    refine ⟨fun _ => ⟨demoTry_ok.before, demoTry_ok.runRevert, noFault_ok, demoTry_ok.seccomp, demoTry_ok.noMem, demoTry_ok.runApply, noFault_ok⟩, ?_⟩
    intro m hm i
    simp only [demoSession, Option.some.injEq] at hm
    subst hm
    exact busy_fits 1 libA [0x1000] [] (by simp [demoF])
  cases hs : session 10 (State.init demoMem) (demoSession 1 [0x1000] fun _ => { demoTry with world := { demoWorld with busy := true } }) with
  | none => simp [hs] at h
  | some p =>
    obtain ⟨s, l, r⟩ := p
    simp only [hs, Option.map_some, Option.some.injEq, Prod.mk.injEq] at h
    obtain ⟨rfl, he, h3⟩ := h
    refine ⟨s, l, rfl, h3, ?_⟩
    exact C132_failure_changes_nothing_partial demo_image 10 [] (by simp) _ [] [] rfl rfl rfl _ hok rfl _ rfl
      (fun _ => ⟨rfl, by simp [demoSession, demoTry], rfl, rfl, rfl, fun _ => rfl, rfl⟩) s l _ hs (by decide) (Or.inl he)

/-- Not in general: where the queue cannot be reset after it has been executed, failure is reported, and the patch is in force. -/
theorem C132_failed_but_in_force : ∃ (s' : State) (log : Log),
    session 10 (State.init demoMem) (demoSession 1 [0x1000] fun _ => { demoTry with queueApply := { noFault with reset := some false } }) =
      some (s', log, (EINSNQ : Int)) ∧ callDest s'.mem 0x1000 = some 0x700001 := by
  have h : (session 10 (State.init demoMem) (demoSession 1 [0x1000] fun _ => { demoTry with queueApply := { noFault with reset := some false } })).map
      (fun p => (p.2.2, callDest p.1.mem 0x1000)) = some ((EINSNQ : Int), some 0x700001) := by decide +kernel
  cases hs : session 10 (State.init demoMem) (demoSession 1 [0x1000] fun _ => { demoTry with queueApply := { noFault with reset := some false } }) with
  | none => simp [hs] at h
  | some p =>
    obtain ⟨s, l, r⟩ := p
    simp only [hs, Option.map_some, Option.some.injEq, Prod.mk.injEq] at h
    obtain ⟨rfl, h2⟩ := h
    exact ⟨s, l, rfl, h2⟩

/-- When a queue that was not empty could not be reset, no later run applies (or reverts) a patch successfully, however often it is tried and whatever else fails (nobody
else using the process). -/
theorem C132_never_again (fuel : Nat) (f : QFault) (s s₁ : State) (e : Nat) (h : interp f s = some (s₁, e)) (hr : f.reset.isSome)
    (hn : s.q.num ≠ 0) (xs : List Session)
    (hxs : ∀ x ∈ xs, x.lib = none ∧ x.patch.isSome ∧ ∀ i, (x.env i).before = [] ∧ Ran.Ok (x.env i).runApply ∧ (x.env i).seccomp ≠ some 0)
    (s' : State) (log : Log) (results : List Int) (h' : sessions fuel s₁ xs = some (s', log, results)) : ∀ r ∈ results, r ≠ 0 := by
  have hst : s₁.err ≠ ENONE ∨ s₁.q.num ≠ 0 := Or.inr (interp_unreset h hr hn)
  clear h hn
  induction xs generalizing s₁ log results with
  | nil =>
    simp only [sessions, Option.some.injEq, Prod.mk.injEq] at h'
    obtain ⟨-, -, rfl⟩ := h'
    simp
  | cons x xs ih =>
    unfold sessions at h'
    cases h1 : session fuel s₁ x with
    | none => simp [h1] at h'
    | some p =>
      obtain ⟨s2, l1, r1⟩ := p
      simp only [h1, Option.map_eq_some_iff] at h'
      obtain ⟨⟨s3, l2, rs2⟩, h2, hb⟩ := h'
      simp only [Prod.mk.injEq] at hb
      obtain ⟨rfl, rfl, rfl⟩ := hb
      obtain ⟨a1, a2, a3⟩ := hxs x (by simp)
      obtain ⟨m, hm⟩ := Option.isSome_iff_exists.mp a2
      obtain ⟨c1, c2⟩ := loop_full a1 hm (fun i => (a3 i).1) (fun i => (a3 i).2.1) (fun i => (a3 i).2.2) _ _ _ s₁ (-1) s2 l1 r1 hst (by decide) h1
      intro r hr
      rcases List.mem_cons.mp hr with rfl | hr
      · exact c1
      · exact ih s2 (fun y hy => hxs y (by simp [hy])) l2 rs2 h2 c2 r hr

/-- The queue after applying a patch is not empty. -/
example : ((applyPatch demoWorld (.ok (demoPatch 1 libA [0x1000] [] [])) (State.init demoMem)).1.q.num ≠ 0) ∧
    ((interp { noFault with reset := some true } (applyPatch demoWorld (.ok (demoPatch 1 libA [0x1000] [] [])) (State.init demoMem)).1).bind fun p =>
      (sessions 10 p.1 [demoSession 2 [0x2000] fun _ => demoTry, demoSession 3 [0x1000] fun _ => demoTry]).map fun q => q.2.2) =
      some [(EINSNQ : Int), EINSNQ] := by
  constructor
  · decide +kernel
  · decide +kernel

/-! ### Further cases -/

theorem demo_found : Session.Found (demoSession 1 [0x1000] demoEnv) := by
  intro i
  cases i <;> exact ⟨rfl, rfl⟩

example : ∃ (s' : State) (log' : Log), session 10 (State.init demoMem) (demoSession 1 [0x1000] demoEnv) = some (s', log', 0) ∧
    Follow demoMem demoF s'.mem (notes [] ([] ++ log')) := by
  obtain ⟨s', log', h, he, -⟩ := demo_success
  exact ⟨s', log', h, (C130_success_in_force_partial demo_image 10 [] (by simp) (State.init demoMem) [] [] rfl _
    (demoEnv_ok 1 [0x1000] (by simp [demoF])) demo_found s' log' h).2.2.2 (Or.inl he)⟩

example : ∃ (s : State) (log : Log) (results : List Int), sessions 10 (State.init demoMem) [demoSession 1 [0x1000] demoEnv] = some (s, log, results) ∧
    Follow demoMem demoF s.mem (notes [] log) := by
  have h : (sessions 10 (State.init demoMem) [demoSession 1 [0x1000] demoEnv]).map (fun p => (p.1.err, p.1.q.num, p.1.q.size)) = some (ENONE, 0, 0) := by
    decide +kernel
  cases hs : sessions 10 (State.init demoMem) [demoSession 1 [0x1000] demoEnv] with
  | none => rw [hs] at h; cases h
  | some p =>
    obtain ⟨s, l, r⟩ := p
    rw [hs] at h
    simp only [Option.map_some, Option.some.injEq, Prod.mk.injEq] at h
    exact ⟨s, l, r, rfl, C131_nothing_left demo_image 10 _ (by
      intro x hx; rw [List.mem_singleton] at hx; subst hx; exact demoEnv_ok 1 [0x1000] (by simp [demoF])) s l r hs (Or.inl h.1) h.2.1 h.2.2⟩

example : ∀ s₁ e, interp { noFault with reset := some true } (applyPatch demoWorld (.ok (demoPatch 1 libA [0x1000] [] [])) (State.init demoMem)).1 = some (s₁, e) →
    ∀ s' log results, sessions 10 s₁ [demoSession 2 [0x2000] fun _ => demoTry, demoSession 3 [0x1000] fun _ => demoTry] = some (s', log, results) → ∀ r ∈ results, r ≠ 0 :=
  fun s₁ e h s' log results h' => C132_never_again 10 _ _ s₁ e h rfl (by decide +kernel) _ (by
    intro x hx
    simp only [List.mem_cons, List.not_mem_nil, or_false] at hx
    rcases hx with rfl | rfl <;> exact ⟨rfl, rfl, fun i => ⟨rfl, by simp [Ran.Ok, demoTry, demoSession], by simp [demoTry, demoSession]⟩⟩) s' log results h'

end Verif.Session
