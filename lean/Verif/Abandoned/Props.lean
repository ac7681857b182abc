import Verif.Abandoned.Model
import Verif.Session.PropsUnknown
import Verif.Power.Props

/-! C214: tools that end before they execute the queue. -/

namespace Verif.Abandoned

open Verif.Runtime
open Verif.Runtime.Spec (Idle Image Fits)
open Verif.Session (raw applyPatch_mem gate_mem gate_full revertPatch_mem)
open Verif.X86.Spec (callDest)

theorem toggle_mem (s : State) : (toggle s).1.mem = s.mem ∧ (toggle s).1.q = s.q := by
  simp only [toggle]
  repeat' split
  all_goals exact ⟨rfl, rfl⟩

theorem revertAllLoop_mem {base fuel} (ps : List Applied) (ret : Err) (s s' : State) (e : Err)
    (h : revertAllLoop base fuel ps ret s = some (s', e)) : s'.mem = s.mem := by
  induction fuel generalizing ps ret s with
  | zero => cases ps <;> simp_all [revertAllLoop]
  | succ fuel ih =>
    cases ps with
    | nil => simp_all [revertAllLoop]
    | cons p ps =>
      simp only [revertAllLoop] at h
      have hr := revertPatch_mem s p.id
      split at h
      · split at h
        · exact ih _ _ _ h
        · split at h
          · simp only [Option.some.injEq, Prod.mk.injEq] at h
            rw [← h.1, hr]
          · rw [ih _ _ _ h, hr]
      · exact ih _ _ _ h

theorem revertAll_mem {fuel w lib} (s s' : State) (e : Err) (h : revertAll fuel w lib s = some (s', e)) : s'.mem = s.mem := by
  have hg := gate_mem w s
  simp only [revertAll] at h
  split at h
  · simp_all
  · split at h
    · simp_all
    · rename_i s1 _ _ _
      obtain ⟨⟨s2, r2⟩, h2, h3⟩ := Option.map_eq_some_iff.1 h
      have := revertAllLoop_mem _ _ _ _ _ h2
      simp only at h3
      split at h3 <;> simp_all

theorem raw_mem {fuel} (s s' : State) (r : Request) (a : Nat) (h : raw fuel s r = some (s', a)) : s'.mem = s.mem := by
  cases r with
  | apply w m =>
    simp only [raw, Option.some.injEq] at h
    have := applyPatch_mem w m s
    simp_all
  | revertAll w lib => exact revertAll_mem s s' a h
  | check id => simp_all [raw]
  | toggle =>
    have := (toggle_mem s).1
    simp_all [raw]

/-- **C214** As long as no tool executes the queue, nothing in the memory of the program changes, whatever is asked of libpulp. -/
theorem C214_nothing_yet (fuel : Nat) (s s' : State) (rs : List Request) (as : List Nat)
    (h : abandoned fuel s rs = some (s', as)) : s'.mem = s.mem := by
  induction rs generalizing s as with
  | nil => simp_all [abandoned]
  | cons r rs ih =>
    simp only [abandoned] at h
    cases hr : raw fuel s r with
    | none => simp [hr] at h
    | some p =>
      obtain ⟨s1, a⟩ := p
      simp only [hr, Option.map_eq_some_iff] at h
      obtain ⟨⟨s2, as2⟩, h2, h3⟩ := h
      simp only [Prod.mk.injEq] at h3
      obtain ⟨rfl, -⟩ := h3
      rw [ih _ _ h2, raw_mem s s1 r a hr]

/-- Whether a request is one to apply or to revert. -/
def changes : Request → Prop
  | .apply _ _ => True
  | .revertAll _ _ => True
  | _ => False

theorem settle_err (s : State) (e : Err) : (settle { s with err := e }).mem = (settle s).mem ∧
    (settle { s with err := e }).q = (settle s).q ∧ (settle { s with err := e }).err = e := ⟨rfl, rfl, rfl⟩

theorem serve_full {fuel} {s : State} (he : s.err = ENONE) (hq : ¬ (s.q.num = 0 ∧ s.q.size = 0)) {r : Request} (hr : changes r) :
    serve fuel s r = some (settle { s with err := EINSNQ }, EINSNQ) := by
  have hg : ∀ w, gate w s = ({ s with err := EINSNQ }, some EINSNQ) := fun w => by rw [gate_full w hq, if_neg (by simp [he])]
  cases r with
  | apply w m => simp only [serve, applyPatch, hg]
  | revertAll w lib => simp only [serve, revertAll, hg, Option.map_some]
  | check id => exact hr.elim
  | toggle => exact hr.elim

theorem serve_stuck {fuel} {s : State} (he : s.err = EINSNQ) {r : Request} (hr : changes r) :
    serve fuel s r = some (settle s, EINSNQ) := by
  have hg : ∀ w, gate w s = (s, some EINSNQ) := fun w => by unfold gate; rw [if_pos (by rw [he]; decide), he]
  cases r with
  | apply w m => simp only [serve, applyPatch, hg]
  | revertAll w lib => simp only [serve, revertAll, hg, Option.map_some]
  | check id => exact hr.elim
  | toggle => exact hr.elim

/-- **C214** The tool of a request ends before it executes the queue. The next request to apply or revert anything is refused with
`EINSNQ`, and yet its tool brings the memory of the program to exactly what the request that was abandoned would have led to. -/
theorem C214_next_makes_changes (fuel : Nat) (s s1 : State) (r : Request) (hr : changes r) (a : Nat) (h : raw fuel s r = some (s1, a))
    (he : s1.err = ENONE) (hq : ¬ (s1.q.num = 0 ∧ s1.q.size = 0)) (r' : Request) (hr' : changes r') :
    ∃ s2 s', serve fuel s r = some (s2, a) ∧ serve fuel s1 r' = some (s', EINSNQ) ∧ s'.mem = s2.mem ∧ s'.patches = s2.patches ∧
      s'.err = EINSNQ := by
  refine ⟨settle s1, settle { s1 with err := EINSNQ }, ?_, serve_full he hq hr', rfl, rfl, rfl⟩
  cases r with
  | apply w m =>
    simp only [raw, Option.some.injEq] at h
    simp only [serve, h]
  | revertAll w lib =>
    simp only [raw] at h
    simp only [serve, h, Option.map_some]
  | check id => exact hr.elim
  | toggle => exact hr.elim

theorem settle_idle {s : State} (hi : Idle s) : settle s = s := by
  rw [settle_holds (holds_empty hi.num hi.size) hi.ver]
  cases s with
  | mk _ _ _ _ _ q _ =>
    cases q
    obtain ⟨h1, h2, -⟩ := hi
    simp only at h1 h2
    subst h1 h2
    rfl

theorem stuck_serve {fuel} {s s' : State} {r : Request} {a : Nat} (hi : Idle s) (he : s.err = EINSNQ)
    (h : serve fuel s r = some (s', a)) : s' = s ∧ (changes r → a = EINSNQ) := by
  cases r with
  | apply w m =>
    rw [serve_stuck (r := .apply w m) he trivial, settle_idle hi] at h
    simp_all
  | revertAll w lib =>
    rw [serve_stuck (r := .revertAll w lib) he trivial, settle_idle hi] at h
    simp_all
  | check id => simp_all [serve, changes]
  | toggle =>
    refine ⟨?_, fun h => h.elim⟩
    simp only [serve, toggle, he, Option.some.injEq] at h
    rw [if_neg (by decide), if_neg (by decide)] at h
    simp_all

/-- What follows once the error is recorded and the queue is empty. -/
theorem never_again {fuel} {s' : State} (hi : Idle s') (he' : s'.err = EINSNQ) (later : List Request) (s'' : State) (as : List Nat)
    (hl : serveAll fuel s' later = some (s'', as)) :
    s'' = s' ∧ as.length = later.length ∧ ∀ p ∈ later.zip as, changes p.1 → p.2 = EINSNQ := by
  induction later generalizing as with
  | nil => simp_all [serveAll]
  | cons x xs ih =>
    simp only [serveAll] at hl
    cases hx : serve fuel s' x with
    | none => simp [hx] at hl
    | some p =>
      obtain ⟨s2, b⟩ := p
      obtain ⟨rfl, hb⟩ := stuck_serve hi he' hx
      simp only [hx, Option.map_eq_some_iff] at hl
      obtain ⟨⟨s3, as3⟩, h3, h4⟩ := hl
      simp only [Prod.mk.injEq] at h4
      obtain ⟨rfl, rfl⟩ := h4
      obtain ⟨g1, g2, g3⟩ := ih as3 h3
      refine ⟨g1, by simp [g2], ?_⟩
      intro p hp
      simp only [List.zip_cons_cons, List.mem_cons] at hp
      rcases hp with rfl | hp
      · exact hb
      · exact g3 p hp

/-- **C214** After any history of well formed requests, the tool of a request ends before it executes the queue, and somebody asks to apply or
revert anything else (the state is `s'` then).  From then on the process can be changed no more: every request to apply or revert is
refused, and everything stays as it is, whatever is asked and however often. -/
theorem C214_then_never {m₀ : Mem} {F slot : Nat → Prop} (hI : Image m₀ F slot) (fuel : Nat) (reqs : List Request)
    (hfit : ∀ r ∈ reqs, Fits m₀ F slot r) (s : State) (as : List Nat) (hs : serveAll fuel (State.init m₀) reqs = some (s, as))
    (r : Request) (hrf : Fits m₀ F slot r) (hr : changes r) (s1 : State) (a : Nat) (h : raw fuel s r = some (s1, a))
    (he : s1.err = ENONE) (hw : ¬ (s1.q.num = 0 ∧ s1.q.size = 0)) (r' : Request) (hr' : changes r') (s' : State) (a' : Nat)
    (h' : serve fuel s1 r' = some (s', a')) (later : List Request) (s'' : State) (bs : List Nat)
    (hl : serveAll fuel s' later = some (s'', bs)) :
    s'' = s' ∧ bs.length = later.length ∧ ∀ p ∈ later.zip bs, changes p.1 → p.2 = EINSNQ := by
  have hinv := serveAll_inv hI reqs hfit _ [] _ _ (init_inv hI) hs
  have hs1 : serve fuel s r = some (settle s1, a) := by
    cases r with
    | apply w m =>
      simp only [raw, Option.some.injEq] at h
      simp only [serve, h]
    | revertAll w lib =>
      simp only [raw] at h
      simp only [serve, h, Option.map_some]
    | check id => exact hr.elim
    | toggle => exact hr.elim
  have hinv1 := serveAll_inv (fuel := fuel) hI [r] (by simpa using hrf) s _ (settle s1) [a] hinv (by simp [serveAll, hs1])
  rw [serve_full he hw hr'] at h'
  simp only [Option.some.injEq, Prod.mk.injEq] at h'
  have hi : Idle s' := by
    rw [← h'.1]
    exact ⟨hinv1.clean.num, hinv1.clean.size, hinv1.clean.ver⟩
  exact never_again hi (by rw [← h'.1]; rfl) later s'' bs hl

/-- The tool that applies patch 1 ends before it executes the queue: calls go where they went. -/
def left : State := (Runtime.applyPatch demoWorld (.ok (demoPatch 1 libA [0x1000] [] [])) (State.init demoMem)).1

theorem demo_left : raw 10 (State.init demoMem) (.apply demoWorld (.ok (demoPatch 1 libA [0x1000] [] []))) = some (left, 0) ∧
    left.err = ENONE ∧ ¬ (left.q.num = 0 ∧ left.q.size = 0) := by
  refine ⟨?_, by decide +kernel, by decide +kernel⟩
  have h : (Runtime.applyPatch demoWorld (.ok (demoPatch 1 libA [0x1000] [] [])) (State.init demoMem)).2 = 0 := by decide +kernel
  simp only [raw, left]
  rw [← h]

example : callDest left.mem 0x1000 = some 0x1002 := by
  have := C214_nothing_yet 10 (State.init demoMem) left [.apply demoWorld (.ok (demoPatch 1 libA [0x1000] [] []))] [0]
    (by simp [abandoned, demo_left.1])
  rw [this]
  decide +kernel

/-- Patch 2, for another function, is refused; patch 1 is in force afterwards. -/
example : ∃ s', Runtime.serve 10 left (.apply demoWorld (.ok (demoPatch 2 libA [0x2000] [] []))) = some (s', EINSNQ) ∧
    callDest s'.mem 0x1000 = some 0x700001 ∧ callDest s'.mem 0x2000 = some 0x2002 := by
  obtain ⟨s2, s', h1, h2, h3, -⟩ := C214_next_makes_changes 10 (State.init demoMem) left
    (.apply demoWorld (.ok (demoPatch 1 libA [0x1000] [] []))) trivial 0 demo_left.1 demo_left.2.1 demo_left.2.2
    (.apply demoWorld (.ok (demoPatch 2 libA [0x2000] [] []))) trivial
  refine ⟨s', h2, ?_⟩
  have e : ((Runtime.serve 10 (State.init demoMem) (.apply demoWorld (.ok (demoPatch 1 libA [0x1000] [] [])))).map fun p =>
    (callDest p.1.mem 0x1000, callDest p.1.mem 0x2000)) = some (some 0x700001, some 0x2002) := by decide +kernel
  rw [h1] at e
  simpa [h3] using e

example := fun s' a' h' later s'' bs hl => C214_then_never demo_image 10 [] (by simp) _ [] rfl
  (.apply demoWorld (.ok (demoPatch 1 libA [0x1000] [] []))) (Session.busy_fits 1 libA [0x1000] [] (by simp [demoF])) trivial left 0 demo_left.1
  demo_left.2.1 demo_left.2.2 (.apply demoWorld (.ok (demoPatch 2 libA [0x2000] [] []))) trivial s' a' h' later s'' bs hl

end Verif.Abandoned

namespace Verif.Power.Abandoned

open Verif.Runtime
open Verif.Runtime.Spec (Idle)
open Verif.Power.Spec (Image Fits)
open Verif.Session (gate_mem gate_full addDetour_mem)
open Verif.Abandoned (changes toggle_mem settle_idle)

theorem applyUnits_mem {t w lib id} (us : List UnitM) (s : State) : (Power.applyUnits t w lib id us s).1.mem = s.mem := by
  induction us generalizing s with
  | nil => rfl
  | cons u us ih =>
    simp only [Power.applyUnits]
    repeat' split
    all_goals first
      | rfl
      | (simp_all [ih]; done)
      | (rw [ih]; simp_all [addDetour_mem])
      | simp_all [addDetour_mem]

theorem applyRefs_mem {w tb ti so} (rs : List RefM) (s : State) : (Power.applyRefs w tb ti so rs s).1.mem = s.mem := by
  induction rs generalizing s with
  | nil => rfl
  | cons r rs ih =>
    simp only [Power.applyRefs]
    repeat' split
    all_goals simp [ih]

theorem applyAllUnits_mem (t : List UInt8) (w : World) (m : Meta) (s : State) : (Power.applyAllUnits t w m s).1.mem = s.mem := by
  have h := applyUnits_mem (t := t) (w := w) (lib := m.lib) (id := m.id) m.units { s with univ := s.univ + 1 }
  simp only [Power.applyAllUnits]
  repeat' split
  all_goals first
    | (simp_all [applyRefs_mem]; done)

theorem revertPatch_mem (t : List UInt8) (s : State) (id : Id) : (Power.revertPatch t s id).1.mem = s.mem := by
  simp only [Power.revertPatch, stateRemove]
  exact (Power.revertRoots_fields t id s.roots { s with univ := s.univ + 1 }).2.2.2.1

theorem loadPatch_mem (t : List UInt8) (w : World) (m : Meta) (s : State) : (Power.loadPatch t w m s).1.mem = s.mem := by
  have hu : ∀ s1, stateUpdate w m s = some s1 → (Power.applyAllUnits t w m s1).1.mem = s.mem := by
    intro s1 h
    rw [applyAllUnits_mem]
    simp only [stateUpdate, Option.map_eq_some_iff] at h
    obtain ⟨us, -, rfl⟩ := h
    rfl
  have hr := revertPatch_mem t s m.id
  simp only [Power.loadPatch]
  generalize (if m.type = 2 then 0 else sanity w m s) = e
  generalize Power.revertPatch t s m.id = y at hr
  generalize canRevert s m.id = c
  cases h : stateUpdate w m s with
  | none =>
    simp only
    repeat' split
    all_goals first | rfl | exact hr
  | some s1 =>
    have := hu s1 h
    simp only
    repeat' split
    all_goals first | rfl | exact hr | exact this

theorem applyPatch_mem (t : List UInt8) (w : World) (m : Except Err Meta) (s : State) : (Power.applyPatch t w m s).1.mem = s.mem := by
  have h := gate_mem w s
  simp only [Power.applyPatch]
  split
  · simp_all
  · cases m with
    | error e => simp_all
    | ok m => simp_all [loadPatch_mem]

theorem revertAllLoop_mem {t base fuel} (ps : List Applied) (ret : Err) (s s' : State) (e : Err)
    (h : Power.revertAllLoop t base fuel ps ret s = some (s', e)) : s'.mem = s.mem := by
  induction fuel generalizing ps ret s with
  | zero => cases ps <;> simp_all [Power.revertAllLoop]
  | succ fuel ih =>
    cases ps with
    | nil => simp_all [Power.revertAllLoop]
    | cons p ps =>
      simp only [Power.revertAllLoop] at h
      have hr := revertPatch_mem t s p.id
      split at h
      · split at h
        · exact ih _ _ _ h
        · split at h
          · simp only [Option.some.injEq, Prod.mk.injEq] at h
            rw [← h.1, hr]
          · rw [ih _ _ _ h, hr]
      · exact ih _ _ _ h

theorem revertAll_mem {t fuel w lib} (s s' : State) (e : Err) (h : Power.revertAll t fuel w lib s = some (s', e)) : s'.mem = s.mem := by
  have hg := gate_mem w s
  simp only [Power.revertAll] at h
  split at h
  · simp_all
  · split at h
    · simp_all
    · rename_i s1 _ _ _
      obtain ⟨⟨s2, r2⟩, h2, h3⟩ := Option.map_eq_some_iff.1 h
      have := revertAllLoop_mem _ _ _ _ _ h2
      simp only at h3
      split at h3 <;> simp_all

theorem raw_mem {t fuel} (s s' : State) (r : Request) (a : Nat) (h : raw t fuel s r = some (s', a)) : s'.mem = s.mem := by
  cases r with
  | apply w m =>
    simp only [raw, Option.some.injEq] at h
    have := applyPatch_mem t w m s
    simp_all
  | revertAll w lib => exact revertAll_mem s s' a h
  | check id => simp_all [raw]
  | toggle =>
    have := (toggle_mem s).1
    simp_all [raw]

/-- **C214** (POWER) As long as no tool executes the queue, nothing in the memory of the program changes, whatever is asked of libpulp. -/
theorem C214_nothing_yet (t : List UInt8) (fuel : Nat) (s s' : State) (rs : List Request) (as : List Nat)
    (h : abandoned t fuel s rs = some (s', as)) : s'.mem = s.mem := by
  induction rs generalizing s as with
  | nil => simp_all [abandoned]
  | cons r rs ih =>
    simp only [abandoned] at h
    cases hr : raw t fuel s r with
    | none => simp [hr] at h
    | some p =>
      obtain ⟨s1, a⟩ := p
      simp only [hr, Option.map_eq_some_iff] at h
      obtain ⟨⟨s2, as2⟩, h2, h3⟩ := h
      simp only [Prod.mk.injEq] at h3
      obtain ⟨rfl, -⟩ := h3
      rw [ih _ _ h2, raw_mem s s1 r a hr]

theorem serve_full {t fuel} {s : State} (he : s.err = ENONE) (hq : ¬ (s.q.num = 0 ∧ s.q.size = 0)) {r : Request} (hr : changes r) :
    Power.serve t fuel s r = some (settle { s with err := EINSNQ }, EINSNQ) := by
  have hg : ∀ w, gate w s = ({ s with err := EINSNQ }, some EINSNQ) := fun w => by rw [gate_full w hq, if_neg (by simp [he])]
  cases r with
  | apply w m => simp only [Power.serve, Power.applyPatch, hg]
  | revertAll w lib => simp only [Power.serve, Power.revertAll, hg, Option.map_some]
  | check id => exact hr.elim
  | toggle => exact hr.elim

theorem serve_stuck {t fuel} {s : State} (he : s.err = EINSNQ) {r : Request} (hr : changes r) :
    Power.serve t fuel s r = some (settle s, EINSNQ) := by
  have hg : ∀ w, gate w s = (s, some EINSNQ) := fun w => by unfold gate; rw [if_pos (by rw [he]; decide), he]
  cases r with
  | apply w m => simp only [Power.serve, Power.applyPatch, hg]
  | revertAll w lib => simp only [Power.serve, Power.revertAll, hg, Option.map_some]
  | check id => exact hr.elim
  | toggle => exact hr.elim

/-- **C214** (POWER) The tool of a request ends before it executes the queue. The next request to apply or revert anything is refused with
`EINSNQ`, and yet its tool brings the memory of the program to exactly what the request that was abandoned would have led to. -/
theorem C214_next_makes_changes (t : List UInt8) (fuel : Nat) (s s1 : State) (r : Request) (hr : changes r) (a : Nat) (h : raw t fuel s r = some (s1, a))
    (he : s1.err = ENONE) (hq : ¬ (s1.q.num = 0 ∧ s1.q.size = 0)) (r' : Request) (hr' : changes r') :
    ∃ s2 s', Power.serve t fuel s r = some (s2, a) ∧ Power.serve t fuel s1 r' = some (s', EINSNQ) ∧ s'.mem = s2.mem ∧ s'.patches = s2.patches ∧
      s'.err = EINSNQ := by
  refine ⟨settle s1, settle { s1 with err := EINSNQ }, ?_, serve_full he hq hr', rfl, rfl, rfl⟩
  cases r with
  | apply w m =>
    simp only [raw, Option.some.injEq] at h
    simp only [Power.serve, h]
  | revertAll w lib =>
    simp only [raw] at h
    simp only [Power.serve, h, Option.map_some]
  | check id => exact hr.elim
  | toggle => exact hr.elim

theorem stuck_serve {t fuel} {s s' : State} {r : Request} {a : Nat} (hi : Idle s) (he : s.err = EINSNQ)
    (h : Power.serve t fuel s r = some (s', a)) : s' = s ∧ (changes r → a = EINSNQ) := by
  cases r with
  | apply w m =>
    rw [serve_stuck (r := .apply w m) he trivial, settle_idle hi] at h
    simp_all
  | revertAll w lib =>
    rw [serve_stuck (r := .revertAll w lib) he trivial, settle_idle hi] at h
    simp_all
  | check id => simp_all [Power.serve, changes]
  | toggle =>
    refine ⟨?_, fun h => h.elim⟩
    simp only [Power.serve, toggle, he, Option.some.injEq] at h
    rw [if_neg (by decide), if_neg (by decide)] at h
    simp_all

/-- What follows once the error is recorded and the queue is empty. -/
theorem never_again {t fuel} {s' : State} (hi : Idle s') (he' : s'.err = EINSNQ) (later : List Request) (s'' : State) (as : List Nat)
    (hl : Power.serveAll t fuel s' later = some (s'', as)) :
    s'' = s' ∧ as.length = later.length ∧ ∀ p ∈ later.zip as, changes p.1 → p.2 = EINSNQ := by
  induction later generalizing as with
  | nil => simp_all [Power.serveAll]
  | cons x xs ih =>
    simp only [Power.serveAll] at hl
    cases hx : Power.serve t fuel s' x with
    | none => simp [hx] at hl
    | some p =>
      obtain ⟨s2, b⟩ := p
      obtain ⟨rfl, hb⟩ := stuck_serve hi he' hx
      simp only [hx, Option.map_eq_some_iff] at hl
      obtain ⟨⟨s3, as3⟩, h3, h4⟩ := hl
      simp only [Prod.mk.injEq] at h4
      obtain ⟨rfl, rfl⟩ := h4
      obtain ⟨g1, g2, g3⟩ := ih as3 h3
      refine ⟨g1, by simp [g2], ?_⟩
      intro p hp
      simp only [List.zip_cons_cons, List.mem_cons] at hp
      rcases hp with rfl | hp
      · exact hb
      · exact g3 p hp

/-- **C214** (POWER) After any history of well formed requests, the tool of a request ends before it executes the queue, and somebody asks to apply or
revert anything else (the state is `s'` then).  From then on the process can be changed no more: every request to apply or revert is
refused, and everything stays as it is, whatever is asked and however often. -/
theorem C214_then_never {t : List UInt8} (htl : t.length = 44) {m₀ : Mem} {F slot : Nat → Prop} (hI : Image m₀ F slot) (fuel : Nat) (reqs : List Request)
    (hfit : ∀ r ∈ reqs, Fits F slot r) (s : State) (as : List Nat) (hs : Power.serveAll t fuel (State.init m₀) reqs = some (s, as))
    (r : Request) (hrf : Fits F slot r) (hr : changes r) (s1 : State) (a : Nat) (h : raw t fuel s r = some (s1, a))
    (he : s1.err = ENONE) (hw : ¬ (s1.q.num = 0 ∧ s1.q.size = 0)) (r' : Request) (hr' : changes r') (s' : State) (a' : Nat)
    (h' : Power.serve t fuel s1 r' = some (s', a')) (later : List Request) (s'' : State) (bs : List Nat)
    (hl : Power.serveAll t fuel s' later = some (s'', bs)) :
    s'' = s' ∧ bs.length = later.length ∧ ∀ p ∈ later.zip bs, changes p.1 → p.2 = EINSNQ := by
  have hinv := Power.serveAll_inv htl hI reqs hfit _ [] _ _ (Power.init_inv hI) hs
  have hs1 : Power.serve t fuel s r = some (settle s1, a) := by
    cases r with
    | apply w m =>
      simp only [raw, Option.some.injEq] at h
      simp only [Power.serve, h]
    | revertAll w lib =>
      simp only [raw] at h
      simp only [Power.serve, h, Option.map_some]
    | check id => exact hr.elim
    | toggle => exact hr.elim
  have hinv1 := Power.serveAll_inv (fuel := fuel) htl hI [r] (by simpa using hrf) s _ (settle s1) [a] hinv (by simp [Power.serveAll, hs1])
  rw [serve_full he hw hr'] at h'
  simp only [Option.some.injEq, Prod.mk.injEq] at h'
  have hi : Idle s' := by
    rw [← h'.1]
    exact ⟨hinv1.clean.num, hinv1.clean.size, hinv1.clean.ver⟩
  exact never_again hi (by rw [← h'.1]; rfl) later s'' bs hl

/-- The same on POWER. -/
def left : State := (Power.applyPatch Power.demoT Runtime.demoWorld (.ok (demoPatch 1 libA [0x1000] [] [])) (State.init Power.demoMem)).1

theorem demo_left : raw Power.demoT 10 (State.init Power.demoMem) (.apply Runtime.demoWorld (.ok (demoPatch 1 libA [0x1000] [] []))) = some (left, 0) ∧
    left.err = ENONE ∧ ¬ (left.q.num = 0 ∧ left.q.size = 0) := by
  refine ⟨?_, by decide +kernel, by decide +kernel⟩
  have h : (Power.applyPatch Power.demoT Runtime.demoWorld (.ok (demoPatch 1 libA [0x1000] [] [])) (State.init Power.demoMem)).2 = 0 := by
    decide +kernel
  simp only [raw, left]
  rw [← h]

example : left.mem = Power.demoMem :=
  C214_nothing_yet Power.demoT 10 (State.init Power.demoMem) left [.apply Runtime.demoWorld (.ok (demoPatch 1 libA [0x1000] [] []))] [0]
    (by simp [abandoned, demo_left.1])

/-- Patch 2, for another function, is refused; the NOP at 0x1000 has been replaced by a branch all the same. -/
example : ∃ s', Power.serve Power.demoT 10 left (.apply Runtime.demoWorld (.ok (demoPatch 2 libA [0x2000] [] []))) = some (s', EINSNQ) ∧
    s'.mem.load 0x1000 4 = Ppc.branchBytes 0 := by
  obtain ⟨s2, s', h1, h2, h3, -⟩ := C214_next_makes_changes Power.demoT 10 (State.init Power.demoMem) left
    (.apply Runtime.demoWorld (.ok (demoPatch 1 libA [0x1000] [] []))) trivial 0 demo_left.1 demo_left.2.1 demo_left.2.2
    (.apply Runtime.demoWorld (.ok (demoPatch 2 libA [0x2000] [] []))) trivial
  refine ⟨s', h2, ?_⟩
  have e : ((Power.serve Power.demoT 10 (State.init Power.demoMem) (.apply Runtime.demoWorld (.ok (demoPatch 1 libA [0x1000] [] [])))).map fun p =>
    p.1.mem.load 0x1000 4) = some (Ppc.branchBytes 0) := by decide +kernel
  rw [h1] at e
  simpa [h3] using e

example := fun s' a' h' later s'' bs hl => C214_then_never Power.demo_t Power.demo_image 10 [] (by simp) _ [] rfl
  (.apply Runtime.demoWorld (.ok (demoPatch 1 libA [0x1000] [] []))) (Power.demo_fits 1 libA [0x1000] [] [] (by simp [demoF]) (by simp)) trivial
  left 0 demo_left.1 demo_left.2.1 demo_left.2.2 (.apply Runtime.demoWorld (.ok (demoPatch 2 libA [0x2000] [] []))) trivial s' a' h' later s'' bs hl

end Verif.Power.Abandoned
