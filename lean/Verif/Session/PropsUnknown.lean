import Verif.Session.Props

/-! C130 in general: a tool that does not find the queue of the process. -/

namespace Verif.Session

open Verif.Runtime
open Verif.X86.Spec (callDest)

theorem addDetour_mem (s : State) (old : Nat) (d : Detour) : (addDetour s old d).mem = s.mem := (addDetour_ok s old d).mem

theorem applyUnits_mem {w lib id} (us : List UnitM) (s : State) : (applyUnits w lib id us s).1.mem = s.mem := by
  induction us generalizing s with
  | nil => rfl
  | cons u us ih =>
    simp only [applyUnits]
    repeat' split
    all_goals first
      | rfl
      | (simp_all [ih]; done)
      | (rw [ih]; simp_all [addDetour_mem])
      | simp_all [addDetour_mem]

theorem applyRefs_mem {w tb ti so} (rs : List RefM) (s : State) : (applyRefs w tb ti so rs s).1.mem = s.mem := by
  induction rs generalizing s with
  | nil => rfl
  | cons r rs ih =>
    simp only [applyRefs]
    repeat' split
    all_goals simp [ih]

theorem applyAllUnits_mem (w : World) (m : Meta) (s : State) : (applyAllUnits w m s).1.mem = s.mem := by
  have h := applyUnits_mem (w := w) (lib := m.lib) (id := m.id) m.units { s with univ := s.univ + 1 }
  simp only [applyAllUnits]
  repeat' split
  all_goals first
    | (simp_all [applyRefs_mem]; done)

theorem revertPatch_mem (s : State) (id : Id) : (revertPatch s id).1.mem = s.mem := by
  simp only [revertPatch, stateRemove]
  exact (revertRoots_fields id s.roots { s with univ := s.univ + 1 }).2.2.2.1

theorem loadPatch_mem (w : World) (m : Meta) (s : State) : (loadPatch w m s).1.mem = s.mem := by
  have hu : ∀ s1, stateUpdate w m s = some s1 → (applyAllUnits w m s1).1.mem = s.mem := by
    intro s1 h
    rw [applyAllUnits_mem]
    simp only [stateUpdate, Option.map_eq_some_iff] at h
    obtain ⟨us, -, rfl⟩ := h
    rfl
  have hr := revertPatch_mem s m.id
  simp only [loadPatch]
  generalize (if m.type = 2 then 0 else sanity w m s) = e
  generalize revertPatch s m.id = y at hr
  generalize canRevert s m.id = c
  cases h : stateUpdate w m s with
  | none =>
    simp only
    repeat' split
    all_goals first | rfl | exact hr
  | some s1 =>
    have := hu s1 h
    simp only
    repeat' split
    all_goals first | rfl | exact hr | exact this

theorem gate_mem (w : World) (s : State) : (gate w s).1.mem = s.mem := by
  simp only [gate]
  repeat' split
  all_goals rfl

/-- What libpulp does when asked to apply or revert a patch does not touch the memory of the program: all it does is to fill the queue. -/
theorem applyPatch_mem (w : World) (m : Except Err Meta) (s : State) : (applyPatch w m s).1.mem = s.mem := by
  have h := gate_mem w s
  simp only [applyPatch]
  split
  · simp_all
  · cases m with
    | error e => simp_all
    | ok m => simp_all [loadPatch_mem]

theorem applyTool_unknown {fuel t m s s' l res} (hq : t.queueApply.found = false)
    (h : applyTool fuel t m s = some (s', l, res)) : s'.mem = s.mem := by
  simp only [applyTool] at h
  split at h
  · simp_all
  split at h
  · simp_all
  have key : ∀ s1 l1 e a, runRoutine fuel s (applyReq t m) t.runApply = some (s1, l1, e, a) → s1.mem = s.mem := by
    intro s1 l1 e a hr
    simp only [applyReq] at hr
    cases hc : t.runApply with
    | done =>
      simp only [hc, runRoutine, raw, Option.map_some, Option.some.injEq, Prod.mk.injEq] at hr
      rw [← hr.1]; exact applyPatch_mem _ _ _
    | failed e b =>
      cases b with
      | true =>
        simp only [hc, runRoutine, raw, Option.map_some, Option.some.injEq, Prod.mk.injEq] at hr
        rw [← hr.1]; exact applyPatch_mem _ _ _
      | false =>
        simp only [hc, runRoutine, Option.some.injEq, Prod.mk.injEq] at hr
        rw [← hr.1]
  split at h
  · simp at h
  · rename_i s1 l1 e a hr
    have hk := key _ _ _ _ hr
    split at h
    · simp_all
    split at h
    · simp_all
    · simp only [interp, hq, Bool.not_false, if_pos] at h
      simp_all

theorem loop_unknown {fuel x m} (hl : x.lib = none) (hp : x.patch = some m) (hb : ∀ i, (x.env i).before = [])
    (hq : ∀ i, (x.env i).queueApply.found = false) (n retry i : Nat) (s : State) (result : Int) (s' : State) (l : Log) (res : Int)
    (h : loop fuel x n retry i s result = some (s', l, res)) : s'.mem = s.mem := by
  induction n generalizing retry i s result l with
  | zero => simp_all [loop]
  | succ n ih =>
    simp only [loop, hb, Runtime.serveAll] at h
    split at h
    · simp_all
    split at h
    · simp_all
    simp only [attempt, revertStep, hl, applyStep, hp, Bool.false_eq_true, if_false, Option.map_eq_some_iff] at h
    cases ha : applyTool fuel (x.env i) m s with
    | none => simp [ha] at h
    | some y =>
      obtain ⟨s1, l1, r1⟩ := y
      have h1 := applyTool_unknown (hq i) ha
      simp only [ha, Option.map_some, Option.map_eq_some_iff] at h
      obtain ⟨⟨s2, l2, r2⟩, h2, h3⟩ := h
      simp only [Prod.mk.injEq] at h3
      obtain ⟨rfl, -, rfl⟩ := h3
      rw [ih _ _ _ _ _ h2, h1]

/-- Negation of C130 in general: where the tool does not find the queue of the process, no attempt changes anything in its memory,
whatever else happens in them; and the first attempt in which nothing else goes wrong and libpulp accepts the patch is reported as a
success. -/
theorem C130_unknown_queue_never (fuel : Nat) (s : State) (x : Session) (m : Meta) (hl : x.lib = none) (hp : x.patch = some m)
    (hb : ∀ i, (x.env i).before = []) (hq : ∀ i, (x.env i).queueApply.found = false) :
    (∀ s' log res, session fuel s x = some (s', log, res) → s'.mem = s.mem) ∧
    (0 < x.retries → (x.env 0).hijack ≤ 0 → (x.env 0).metadata = true → (x.env 0).seccomp = none → (x.env 0).noMem = none →
      (x.env 0).runApply = .done → (applyPatch (x.env 0).world (.ok m) s).2 = 0 →
      ∃ s' log, session fuel s x = some (s', log, 0) ∧ s' = (applyPatch (x.env 0).world (.ok m) s).1) := by
  refine ⟨fun s' log res h => loop_unknown hl hp hb hq _ _ _ _ _ _ _ _ h, fun hr hh hm hs hn ha h0 => ?_⟩
  obtain ⟨n, hn'⟩ := Nat.exists_eq_succ_of_ne_zero (Nat.pos_iff_ne_zero.1 hr)
  have ht : applyTool fuel (x.env 0) m s =
      some ((applyPatch (x.env 0).world (.ok m) s).1, [(applyReq (x.env 0) m, 0)], 0) := by
    simp only [applyTool, hm, hs, runRoutine, ha, applyReq, hn, raw, Option.map_some, h0, interp, hq]
    simp [EOLDLIBPULP]
  refine ⟨(applyPatch (x.env 0).world (.ok m) s).1, [(applyReq (x.env 0) m, 0)], ?_, rfl⟩
  · have hloop : ∀ k i s r, loop fuel x k 0 i s r = some (s, [], r) := by
      intro k; cases k <;> simp [loop]
    simp only [session, hn', Nat.succ_eq_add_one, loop, hb, Runtime.serveAll, attempt, revertStep, hl, applyStep, hp]
    have : ¬ (x.env 0).hijack > 0 := by omega
    simp [this, ht, hloop]

/-- The session of the example above. -/
example := C130_unknown_queue_never 10 (State.init demoMem)
  (demoSession 1 [0x1000] fun _ => { demoTry with queueApply := { noFault with found := false } }) _ rfl rfl (fun _ => rfl) (fun _ => rfl)

example : ∃ s' log, session 10 (State.init demoMem)
    (demoSession 1 [0x1000] fun _ => { demoTry with queueApply := { noFault with found := false } }) = some (s', log, 0) ∧
    s' = (applyPatch demoWorld (.ok (demoPatch 1 libA [0x1000] [] [])) (State.init demoMem)).1 :=
  (C130_unknown_queue_never 10 (State.init demoMem)
    (demoSession 1 [0x1000] fun _ => { demoTry with queueApply := { noFault with found := false } }) _ rfl rfl (fun _ => rfl) (fun _ => rfl)).2
    (by decide) (by decide) rfl rfl rfl rfl (by decide +kernel)

end Verif.Session
