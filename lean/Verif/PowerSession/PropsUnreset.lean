import Verif.PowerSession.PropsUnknown
import Verif.Session.PropsUnreset

/-! C217 in general: a queue that is executed and cannot be reset, on POWER. -/

namespace Verif.Power.Run

open Verif.Runtime hiding Good Inv area loadPatch_apply_ok demoMem demo_image demo_fits demo_reqs_fit demo_run
open Verif.Runtime.Spec (Patch track trackAll replacement healthy Idle patchOf libKey refAddr refSize)
open Power.Spec (callDest entryOff body inStub Image Fits)
open Verif.InsnQueue (Req Holds Event)
open Verif.InsnQueue.Spec (perform)
open Verif.Session hiding demoTry_ok busy_fits demoEnv_ok same_ok demo_success lostRead demo_found applyTool_again loop_again
open Verif.Session.Spec hiding Follow
open Verif.Power.Run.Spec

variable {tm : List UInt8}

/-- An attempt on a process whose queue has been executed and not been reset. -/
theorem applyTool_again {t : Try} (ht : Unreset t) {fuel m} {s : State} {ws} (hv : s.q.version ≤ 1) (hw : Holds s.q ws)
    (hn : s.q.num ≠ 0) (hm : perform s.mem ws = s.mem) :
    ∃ s' l res, applyTool tm fuel t m s = some (s', l, res) ∧ s'.mem = s.mem ∧ s'.q = s.q ∧ res ≠ 0 := by
  have hg := gate_full (s := s) t.world (by omega)
  have ha : ∃ s1 e, applyPatch tm t.world (.ok m) s = (s1, e) ∧ s1.mem = s.mem ∧ s1.q = s.q ∧ e ≠ 0 := by
    unfold applyPatch
    rw [hg]
    by_cases he : s.err ≠ ENONE
    · rw [if_pos he]; exact ⟨s, s.err, rfl, rfl, rfl, he⟩
    · rw [if_neg he]; exact ⟨_, _, rfl, rfl, rfl, by decide⟩
  obtain ⟨s1, e, h1, h2, h3, h4⟩ := ha
  have hi := interp_unreset_holds ht (s := s1) (ws := ws) (by rw [h3]; exact hv) (by rw [h3]; exact hw)
  simp only [applyTool, ht.metadata, ht.seccomp, runRoutine, ht.run, applyReq, ht.noMem, raw, h1, Option.map_some, Bool.not_true,
    Bool.false_eq_true, if_false, ne_eq, not_true_eq_false, hi]
  split
  · exact ⟨_, _, _, rfl, h2, h3, by decide⟩
  · exact ⟨_, _, _, rfl, by rw [h2]; exact hm, h3, by simp [EINSNQ, EOLDLIBPULP]⟩

theorem loop_again {fuel x m} (hl : x.lib = none) (hp : x.patch = some m) (hu : ∀ i, Unreset (x.env i)) (n retry i : Nat) (s : State)
    (result : Int) {ws} (hv : s.q.version ≤ 1) (hw : Holds s.q ws) (hn : s.q.num ≠ 0) (hm : perform s.mem ws = s.mem) (hr : result ≠ 0) :
    ∃ s' l res, loop tm fuel x n retry i s result = some (s', l, res) ∧ s'.mem = s.mem ∧ res ≠ 0 := by
  induction n generalizing retry i s result with
  | zero => exact ⟨s, [], result, rfl, rfl, hr⟩
  | succ n ih =>
    simp only [loop]
    split
    · exact ⟨s, [], result, rfl, rfl, hr⟩
    · have hj : ¬ (x.env i).hijack > 0 := by have := (hu i).hijack; omega
      obtain ⟨s1, l1, r1, h1, h2, h3, h4⟩ := applyTool_again (tm := tm) (hu i) (fuel := fuel) (m := m) hv hw hn hm
      simp only [(hu i).before, Power.serveAll, hj, if_false, attempt, revertStep, hl, applyStep, hp, Bool.false_eq_true, h1, Option.map_some]
      obtain ⟨s2, l2, r2, g1, g2, g3⟩ := ih (if (x.env i).restore ≠ 0 then 0 else if r1 = -1 ∨ r1 = 0 then 0 else retry - 1) (i + 1) s1 r1
        (by rw [h3]; exact hv) (by rw [h3]; exact hw) (by rw [h3]; exact hn) (by rw [h2]; exact hm) h4
      refine ⟨s2, [].zip [] ++ ([] ++ l1) ++ l2, r2, ?_, g2.trans h2, g3⟩
      rw [g1]
      rfl

/-- Negation of C217 in general: after any history of well formed requests, when libpulp accepts a livepatch and nothing fails but that
the queue cannot be reset after it has been executed, `ulp trigger` reports a failure, however often it tries, and the memory of the
process is what the livepatch makes of it. -/
theorem C217_failed_in_force_always {m₀ : Mem} {F slot : Nat → Prop} (htl : tm.length = 44) (hI : Image m₀ F slot) (fuel : Nat) (reqs : List Request)
    (hfit : ∀ r ∈ reqs, Fits F slot r) (s : State) (as : List Nat) (hs : serveAll tm fuel (State.init m₀) reqs = some (s, as))
    (x : Session) (m : Meta) (hl : x.lib = none) (hp : x.patch = some m) (hu : ∀ i, Unreset (x.env i)) (hretry : 0 < x.retries)
    (hfm : Fits F slot (.apply (x.env 0).world (.ok m))) (s2 : State)
    (hok : serve tm fuel s (.apply (x.env 0).world (.ok m)) = some (s2, 0))
    (hnew : (applyPatch tm (x.env 0).world (.ok m) s).1.q.num ≠ 0) :
    ∃ s' log res, session tm fuel s x = some (s', log, res) ∧ res ≠ 0 ∧ s'.mem = s2.mem := by
  have hinv := serveAll_inv htl hI reqs hfit _ [] _ _ (init_inv hI) hs
  simp only [serve, Option.some.injEq, Prod.mk.injEq] at hok
  obtain ⟨h1, h2⟩ := hok
  generalize ha : applyPatch tm (x.env 0).world (.ok m) s = y at h1 h2 hnew
  obtain ⟨s1, a⟩ := y
  simp only at h1 h2 hnew
  subst h2
  obtain ⟨⟨ws, hw⟩, hver, hmem, -⟩ := raw_idle (fuel := fuel) (s' := s1) (a := 0) htl hI hfm hinv (by simp only [raw, ha])
  have hv : s1.q.version ≤ 1 := by rw [hver]; exact hinv.clean.ver
  have hset := settle_holds hw hv
  obtain ⟨n, hn'⟩ := Nat.exists_eq_succ_of_ne_zero (Nat.pos_iff_ne_zero.1 hretry)
  have hi := interp_unreset_holds (hu 0) hv hw
  have ht : applyTool tm fuel (x.env 0) m s = some ({ s1 with mem := perform s1.mem ws }, [(applyReq (x.env 0) m, 0)], ((EINSNQ : Nat) : Int)) := by
    simp only [applyTool, (hu 0).metadata, (hu 0).seccomp, runRoutine, (hu 0).run, applyReq, (hu 0).noMem, raw, ha, Option.map_some, Bool.not_true,
      Bool.false_eq_true, if_false, ne_eq, not_true_eq_false, false_and, hi]
    rfl
  have hj : ¬ (x.env 0).hijack > 0 := by have := (hu 0).hijack; omega
  obtain ⟨s3, l3, r3, g1, g2, g3⟩ := loop_again (tm := tm) (fuel := fuel) hl hp hu n
    (if (x.env 0).restore ≠ 0 then 0 else if ((EINSNQ : Nat) : Int) = -1 ∨ ((EINSNQ : Nat) : Int) = 0 then 0 else x.retries - 1) 1
    { s1 with mem := perform s1.mem ws } (EINSNQ : Nat) (ws := ws) hv hw hnew
    (InsnQueue.perform_again (m := s1.mem) (fun i hi => InsnQueue.perform_out hi)) (by decide)
  refine ⟨s3, [] ++ ([] ++ [(applyReq (x.env 0) m, 0)]) ++ l3, r3, ?_, g3, ?_⟩
  · have hr : ¬ x.retries = 0 := by omega
    have e : session tm fuel s x = loop tm fuel x (n + 1) x.retries 0 s (-1) := by unfold session; rw [hn']
    rw [e]
    simp only [loop, hr, (hu 0).before, Power.serveAll, hj, if_false, attempt, revertStep, hl, applyStep, hp, Bool.false_eq_true, ht,
      Option.map_some, g1, List.zip_nil_left]
  · rw [g2, ← h1, hset]

/-- The process of the examples, and a queue that cannot be reset in any attempt. -/
example : ∃ s' log res, session demoT 10 (State.init demoMem) (demoSession 1 [0x1000] fun _ => { demoTry with queueApply := { noFault with reset := some false } }) =
    some (s', log, res) ∧ res ≠ 0 ∧ callDest demoT 0 s'.mem 0x1000 = some 0x700001 := by
  have e : ((serve demoT 10 (State.init demoMem) (.apply demoWorld (.ok (demoPatch 1 libA [0x1000] [] [])))).map fun p =>
    (p.2, callDest demoT 0 p.1.mem 0x1000)) = some (0, some 0x700001) := by decide +kernel
  cases hs : serve demoT 10 (State.init demoMem) (.apply demoWorld (.ok (demoPatch 1 libA [0x1000] [] []))) with
  | none => rw [hs] at e; cases e
  | some p =>
    obtain ⟨s2, a⟩ := p
    rw [hs] at e
    simp only [Option.map_some, Option.some.injEq, Prod.mk.injEq] at e
    obtain ⟨rfl, e⟩ := e
    obtain ⟨s', log, res, h1, h2, h3⟩ := C217_failed_in_force_always demo_t demo_image 10 [] (by simp) _ [] rfl
      (demoSession 1 [0x1000] fun _ => { demoTry with queueApply := { noFault with reset := some false } }) (demoPatch 1 libA [0x1000] [] []) rfl rfl
      (fun _ => ⟨rfl, Int.le_refl 0, rfl, rfl, rfl, rfl, rfl, rfl, rfl, fun _ => rfl, rfl⟩) (by decide)
      (busy_fits 1 libA [0x1000] [] (by simp [demoF])) s2 hs (by decide +kernel)
    exact ⟨s', log, res, h1, h2, by rw [h3]; exact e⟩

end Verif.Power.Run
