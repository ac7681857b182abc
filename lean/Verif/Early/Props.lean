import Verif.Early.Model
import Verif.Runtime.Props
import Verif.Power.Props

namespace Verif.Early

open Verif.InsnQueue (Holds Req Effect)
open Verif.InsnQueue.Spec (perform asked)
open Verif.Runtime (State Request Meta World)

/-- The first changes are the first writes. -/
theorem partly_holds {s : State} {rs : List Req} (h : Holds s.q rs) (hv : s.q.version ≤ InsnQueue.currVersion) (k : Nat) :
    partly s k = perform s.mem (rs.take k) := by
  unfold partly
  rw [InsnQueue.toolRun_holds h hv]
  simp only [List.take_append, List.length_map]
  rw [← List.map_take]
  unfold InsnQueue.applyEffects
  rw [List.foldl_append]
  have := InsnQueue.apply_events ⟨s.mem, s.q⟩ (rs.take k)
  unfold InsnQueue.applyEffects at this
  rw [this]
  generalize k - rs.length = j
  match j with
  | 0 => rfl
  | 1 => rfl
  | j + 2 => simp [Effect.apply]

/-- The tool has executed the whole queue. -/
theorem partly_end (s : State) : ∃ n, ∀ k, n ≤ k → partly s k = (Runtime.settle s).mem := by
  refine ⟨(InsnQueue.toolRun s.q (fun _ => none)).1.length, fun k hk => ?_⟩
  unfold partly
  rw [List.take_of_length_le hk]
  rfl

theorem replacement_some {p : Runtime.Spec.Patch} {ps : List Runtime.Spec.Patch} {u : Nat × Nat} (hu : u ∈ p.repl) :
    Runtime.Spec.replacement (p :: ps) u.1 ≠ none := by
  unfold Runtime.Spec.replacement
  have : p.repl.filter (fun v => v.1 = u.1) ≠ [] := by
    intro h
    have := List.filter_eq_nil_iff.mp h u hu
    simp at this
  cases hl : (p.repl.filter (fun v => v.1 = u.1)).getLast? with
  | none => exact absurd (List.getLast?_eq_none_iff.mp hl) this
  | some v => simp

/-! ### x86-64 -/

section

open Verif.Runtime Verif.Runtime.Spec
open X86.Spec (callDest body)

theorem accepted {s s1 : State} {w : World} {m : Meta} (hc : Idle s) (h : applyPatch w (.ok m) s = (s1, 0)) :
    s.err = ENONE ∧ loadPatch w m s = (s1, 0) := by
  unfold applyPatch at h
  rw [gate_clean hc] at h
  by_cases he : s.err ≠ ENONE
  · rw [if_pos he] at h
    simp only [Prod.mk.injEq] at h
    exact absurd h.2 he
  · rw [if_neg he] at h
    cases hb : w.busy with
    | true => rw [hb] at h; simp [EAGAIN] at h
    | false => rw [hb] at h; exact ⟨Decidable.not_not.mp he, by simpa using h⟩

/-- **C211** (negation, in general) Whatever was done to the process before and whatever patch is applied successfully:
there is a moment, between two writes of the tool, at which all functions of the patch are redirected already,
and none of its references is set; they hold what they held before the patch was applied. -/
theorem C211_functions_first {m₀ : Mem} {F slot : Nat → Prop} (hI : Image m₀ F slot) (fuel : Nat) (reqs : List Request)
    (hfit : ∀ r ∈ reqs, Fits m₀ F slot r) (s : State) (as : List Nat) (h : serveAll fuel (State.init m₀) reqs = some (s, as))
    (w : World) (m : Meta) (hm : Fits m₀ F slot (.apply w (.ok m))) (ht : m.type = 1) (s1 : State)
    (ha : applyPatch w (.ok m) s = (s1, 0)) (he : s1.err = ENONE) :
    ∃ k, (∀ f, F f → callDest (partly s1 k) f =
        some ((replacement (patchOf w m :: trackAll [] reqs as) f).getD (body m₀ f))) ∧
      ∀ so, w.soBase = some so → ∀ r ∈ m.refs,
        (partly s1 k).load (refAddr w so r) (refSize r) = s.mem.load (refAddr w so r) (refSize r) := by
  have hinv := serveAll_inv hI reqs hfit _ _ _ _ (init_inv hI) h
  obtain ⟨hs, hl⟩ := accepted hinv.clean ha
  obtain ⟨ws, hem, -, hgood, -, so, hso, hws⟩ := loadPatch_apply_ok hI hm ht (hinv.good (.inl hs)) hl
  obtain ⟨ws', -, hh, heq⟩ := hem.holds [] hinv.clean.holds
  rw [heq (by rw [he]; decide), List.nil_append] at hh
  have hv : s1.q.version ≤ InsnQueue.currVersion := by rw [hem.ver]; exact hinv.clean.ver
  generalize hU : (resolved w m.lib m.units).map (fun u => entryWrite (X86.hasEndbr m₀ u.1) u.1 (some u.2)) = us at hws
  refine ⟨us.length, ?_⟩
  have hp : partly s1 us.length = perform s.mem us := by
    rw [partly_holds hh hv, hws, List.take_left, hem.mem]
  rw [hp]
  have hslot : InSet slot (m.refs.map fun r => .write (refAddr w so r)
      (refBytes (w.libBase (getBasename m.lib)) (w.tlsIdx (getBasename m.lib)) r)) := by
    intro x hx i hi
    obtain ⟨r, hr, rfl⟩ := List.mem_map.mp hx
    simp only [InsnQueue.touches, refBytes_length] at hi
    exact ((hm ht).2 r hr so hso).2 i hi.1 hi.2
  constructor
  · have hg2 : Runtime.Good m₀ F s1 (perform s.mem us) (patchOf w m :: trackAll [] reqs as) := { hgood with
      entries := by
        intro f hf
        refine Entry.congr (hI.range f hf).1 ?_ (hgood.entries f hf)
        intro i hi
        rw [hws, perform_append]
        exact perform_inSet hslot (hI.slots f i hf ((inPad_iff _ _ _).mpr hi)) }
    exact fun f hf => hg2.calls hI.range f hf
  · intro so' hso' r hr
    have hin : InSet (fun i => ∃ f, F f ∧ inPad m₀ f i) us := by
      subst hU
      have hres : ∀ u ∈ resolved w m.lib m.units, F u.1 := by
        intro u hu
        by_cases hc : u.1 ∈ s1.roots.map (fun r => r.addr)
        · obtain ⟨rt, hrt, e⟩ := List.mem_map.mp hc
          rw [← e]; exact hgood.inF rt hrt
        · have htop := hgood.top u.1
          rw [stackOf_none hc] at htop
          exact absurd htop.symm (replacement_some (p := patchOf w m) hu)
      refine (unitWrites_inSet (e0 := X86.hasEndbr m₀) hI.range _ hres).mono ?_
      rintro i ⟨f, hf, hi⟩
      exact ⟨f, hf, (inPad_iff _ _ _).mpr hi⟩
    apply load_congr
    intro i h1 h2
    refine perform_inSet hin ?_
    rintro ⟨f, hf, hp⟩
    exact hI.slots f i hf hp (((hm ht).2 r hr so' hso').2 i h1 h2)

/-- Patch 1 replaces 0x1000 and 0x2000 and has a reference at 0x5008, which is to hold 0x400123. -/
def demoApply : Meta := demoPatch 1 libA [0x1000, 0x2000] [] demoRefs

theorem demo_apply_fits : Fits demoMem demoF demoSlot (.apply demoWorld (.ok demoApply)) :=
  demo_reqs_fit _ (by simp [demoReqs, demoApply])

theorem demo_apply_ok : (applyPatch demoWorld (.ok demoApply) (State.init demoMem)).2 = 0 ∧
    (applyPatch demoWorld (.ok demoApply) (State.init demoMem)).1.err = ENONE := by decide +kernel

example : ∃ k, callDest (partly (applyPatch demoWorld (.ok demoApply) (State.init demoMem)).1 k) 0x1000 = some 0x700001 ∧
    (partly (applyPatch demoWorld (.ok demoApply) (State.init demoMem)).1 k).load 0x5008 8 = demoMem.load 0x5008 8 := by
  obtain ⟨k, h1, h2⟩ := C211_functions_first demo_image 10 [] (by simp) (State.init demoMem) [] rfl demoWorld demoApply
    demo_apply_fits rfl _ (Prod.ext rfl demo_apply_ok.1) demo_apply_ok.2
  exact ⟨k, h1 0x1000 (by simp [demoF]), h2 0x5000 rfl _ (List.mem_singleton.mpr rfl)⟩

/-- Two changes are made before the reference is set, which then takes one. -/
example : [0, 1, 2, 3].map (fun k =>
      let m := partly (applyPatch demoWorld (.ok demoApply) (State.init demoMem)).1 k
      (callDest m 0x1000, callDest m 0x2000, m.load 0x5008 8 = le 8 0x400123)) =
    [(some 0x1002, some 0x2002, False), (some 0x700001, some 0x2002, False), (some 0x700001, some 0x700001, False),
      (some 0x700001, some 0x700001, True)] := by
  simp only [List.map, List.cons.injEq, Prod.mk.injEq, eq_iff_iff, iff_false, iff_true]
  decide +kernel

/-- **C211** While a patch is being reverted, its references (and those of all others) stay as they are at every moment, so that
calls that still go to its functions find them. -/
theorem C211_revert_partial {m₀ : Mem} {F slot : Nat → Prop} (hI : Image m₀ F slot) (fuel : Nat) (reqs : List Request)
    (hfit : ∀ r ∈ reqs, Fits m₀ F slot r) (s : State) (as : List Nat) (h : serveAll fuel (State.init m₀) reqs = some (s, as))
    (w : World) (m : Meta) (ht : m.type = 2) (s1 : State)
    (ha : applyPatch w (.ok m) s = (s1, 0)) (k : Nat) (i : Nat) (hi : slot i) : partly s1 k i = s.mem i := by
  have hinv := serveAll_inv hI reqs hfit _ _ _ _ (init_inv hI) h
  obtain ⟨hs, hl⟩ := accepted hinv.clean ha
  have hg := hinv.good (.inl hs)
  obtain ⟨hc, rfl⟩ := loadPatch_revert hl ht
  obtain ⟨-, ws, hem, hin, -⟩ := revertPatch_ok hI hg (hg.ready hI.range) hc
  obtain ⟨ws', hsub, hh, -⟩ := hem.holds [] hinv.clean.holds
  rw [List.nil_append] at hh
  rw [partly_holds hh (by rw [hem.ver]; exact hinv.clean.ver), hem.mem]
  refine perform_inSet ((hin.sublist hsub).sublist (List.take_sublist k ws')) ?_
  rintro ⟨f, hf, hp⟩
  exact hI.slots f i hf hp hi

example : ∃ s, serveAll 10 (State.init demoMem) [.apply demoWorld (.ok demoApply)] = some (s, [0]) ∧
    ∀ k, (partly (applyPatch demoWorld (.ok (demoRevert 1 libA)) s).1 k).load 0x5008 8 = s.mem.load 0x5008 8 := by
  have h : (serveAll 10 (State.init demoMem) [.apply demoWorld (.ok demoApply)]).map (fun p =>
      (p.2, (applyPatch demoWorld (.ok (demoRevert 1 libA)) p.1).2)) = some ([0], 0) := by decide +kernel
  cases hr : serveAll 10 (State.init demoMem) [.apply demoWorld (.ok demoApply)] with
  | none => rw [hr] at h; cases h
  | some p =>
    rw [hr] at h
    obtain ⟨s, as⟩ := p
    simp only [Option.map_some, Option.some.injEq, Prod.mk.injEq] at h
    obtain ⟨rfl, hz⟩ := h
    refine ⟨s, rfl, fun k => load_congr fun i a b => ?_⟩
    refine C211_revert_partial demo_image 10 _ ?_ s _ hr demoWorld _ rfl _ (Prod.ext rfl hz) k i ⟨by omega, by omega⟩
    intro r hm
    rw [List.mem_singleton.mp hm]
    exact demo_apply_fits

/-- **C211** When the tool has executed the queue, the process is in the state that follows the request: the one of which C18
tells where calls go, and C50 what the references hold. -/
theorem C211_end_partial (fuel : Nat) (s : State) (w : World) (m : Except Nat Meta) (s' : State) (e : Nat)
    (h : serve fuel s (.apply w m) = some (s', e)) :
    ∃ n, ∀ k, n ≤ k → partly (applyPatch w m s).1 k = s'.mem := by
  simp only [serve, Option.some.injEq, Prod.mk.injEq] at h
  rw [← h.1]
  exact partly_end _

example : ∃ n, ∀ k, n ≤ k → partly (applyPatch demoWorld (.ok demoApply) (State.init demoMem)).1 k =
    (settle (applyPatch demoWorld (.ok demoApply) (State.init demoMem)).1).mem :=
  C211_end_partial 10 (State.init demoMem) demoWorld (.ok demoApply) _ _ rfl

end

end Verif.Early

/-! ### POWER -/

namespace Verif.Power.Early

open Verif.Early (partly partly_holds partly_end replacement_some)
open Verif.Runtime hiding Good Inv area loadPatch_apply_ok
open Verif.Runtime.Spec (Patch track trackAll replacement healthy Idle patchOf libKey refAddr refSize)
open Power.Spec (callDest entryOff body inStub inPad Image Fits)
open Verif.InsnQueue (Req Holds touches Queue)
open Verif.InsnQueue.Spec (perform)

variable {t : List UInt8}

theorem accepted {s s1 : State} {w : World} {m : Meta} (hc : Idle s) (h : applyPatch t w (.ok m) s = (s1, 0)) :
    s.err = ENONE ∧ loadPatch t w m s = (s1, 0) := by
  unfold applyPatch at h
  rw [gate_clean hc] at h
  by_cases he : s.err ≠ ENONE
  · rw [if_pos he] at h
    simp only [Prod.mk.injEq] at h
    exact absurd h.2 he
  · rw [if_neg he] at h
    cases hb : w.busy with
    | true => rw [hb] at h; simp [EAGAIN] at h
    | false => rw [hb] at h; exact ⟨Decidable.not_not.mp he, by simpa using h⟩

/-- **C212** (negation, in general) Whatever was done to the process before and whatever patch is applied successfully:
there is a moment, between two writes of the tool, at which all functions of the patch are redirected already,
and none of its references is set; they hold what they held before the patch was applied. -/
theorem C212_functions_first {m₀ : Mem} {F slot : Nat → Prop} (htl : t.length = 44) (hI : Image m₀ F slot) (fuel : Nat) (reqs : List Request)
    (hfit : ∀ r ∈ reqs, Fits F slot r) (s : State) (as : List Nat) (h : serveAll t fuel (State.init m₀) reqs = some (s, as))
    (w : World) (m : Meta) (hm : Fits F slot (.apply w (.ok m))) (ht : m.type = 1) (s1 : State)
    (ha : applyPatch t w (.ok m) s = (s1, 0)) (he : s1.err = ENONE) :
    ∃ k, (∀ f, F f → callDest t (entryOff m₀ f) (partly s1 k) f =
        some ((replacement (patchOf w m :: trackAll [] reqs as) f).getD (body m₀ f))) ∧
      ∀ so, w.soBase = some so → ∀ r ∈ m.refs,
        (partly s1 k).load (refAddr w so r) (refSize r) = s.mem.load (refAddr w so r) (refSize r) := by
  have hinv := serveAll_inv htl hI reqs hfit _ _ _ _ (init_inv hI) h
  obtain ⟨hs, hl⟩ := accepted hinv.clean ha
  obtain ⟨ws, hem, -, hgood, -, so, hso, hws⟩ := loadPatch_apply_ok htl hI hm ht (hinv.good (.inl hs)) hl
  obtain ⟨ws', -, hh, heq⟩ := hem.holds [] hinv.clean.holds
  rw [heq (by rw [he]; decide), List.nil_append] at hh
  have hv : s1.q.version ≤ InsnQueue.currVersion := by rw [hem.ver]; exact hinv.clean.ver
  generalize hU : (resolved w m.lib m.units).flatMap (fun u => entryWrites t (entryOff m₀ u.1) u.1 (some u.2)) = us at hws
  refine ⟨us.length, ?_⟩
  have hp : partly s1 us.length = perform s.mem us := by
    rw [partly_holds hh hv, hws, List.take_left, hem.mem]
  rw [hp]
  have hslot : InSet slot (m.refs.map fun r => .write (refAddr w so r)
      (refBytes (w.libBase (getBasename m.lib)) (w.tlsIdx (getBasename m.lib)) r)) := by
    intro x hx i hi
    obtain ⟨r, hr, rfl⟩ := List.mem_map.mp hx
    simp only [InsnQueue.touches, refBytes_length] at hi
    exact ((hm ht).2 r hr so hso).2 i hi.1 hi.2
  constructor
  · have hg2 : Power.Good t m₀ F s1 (perform s.mem us) (patchOf w m :: trackAll [] reqs as) := { hgood with
      entries := by
        intro f hf
        refine Entry.congr (hI.range f hf).1 ?_ (hgood.entries f hf)
        intro i hi
        rw [hws, perform_append]
        exact perform_inSet hslot (hI.slots f i hf ((inPad_iff _ _ _).mpr hi)) }
    exact fun f hf => hg2.calls htl hI.range f hf
  · intro so' hso' r hr
    have hin : InSet (fun i => ∃ f, F f ∧ inPad m₀ f i) us := by
      subst hU
      have hres : ∀ u ∈ resolved w m.lib m.units, F u.1 := by
        intro u hu
        by_cases hc : u.1 ∈ s1.roots.map (fun r => r.addr)
        · obtain ⟨rt, hrt, e⟩ := List.mem_map.mp hc
          rw [← e]; exact hgood.inF rt hrt
        · have htop := hgood.top u.1
          rw [stackOf_none hc] at htop
          exact absurd htop.symm (replacement_some (p := patchOf w m) hu)
      refine (unitWrites_inSet htl (e0 := entryOff m₀) hI.range _ hres).mono ?_
      rintro i ⟨f, hf, hi⟩
      exact ⟨f, hf, (inPad_iff _ _ _).mpr (cell_pad hi)⟩
    apply load_congr
    intro i h1 h2
    refine perform_inSet hin ?_
    rintro ⟨f, hf, hp⟩
    exact hI.slots f i hf hp (((hm ht).2 r hr so' hso').2 i h1 h2)

open Verif.Early (demoApply)

theorem demo_apply_fits : Fits demoF demoSlot (.apply demoWorld (.ok demoApply)) :=
  demo_reqs_fit _ (by simp [demoReqs, demoApply])

theorem demo_apply_ok : (applyPatch demoT demoWorld (.ok demoApply) (State.init demoMem)).2 = 0 ∧
    (applyPatch demoT demoWorld (.ok demoApply) (State.init demoMem)).1.err = ENONE := by decide +kernel

example : ∃ k, callDest demoT 0 (partly (applyPatch demoT demoWorld (.ok demoApply) (State.init demoMem)).1 k) 0x1000 = some 0x700001 ∧
    (partly (applyPatch demoT demoWorld (.ok demoApply) (State.init demoMem)).1 k).load 0x5008 8 = demoMem.load 0x5008 8 := by
  obtain ⟨k, h1, h2⟩ := C212_functions_first demo_t demo_image 10 [] (by simp) (State.init demoMem) [] rfl demoWorld demoApply
    demo_apply_fits rfl _ (Prod.ext rfl demo_apply_ok.1) demo_apply_ok.2
  have h := h1 0x1000 (by simp [demoF])
  rw [demo_off.1] at h
  exact ⟨k, h, h2 0x5000 rfl _ (List.mem_singleton.mpr rfl)⟩

/-- Four changes, two for each function, are made before the reference is set, which then takes one. -/
example : [0, 2, 4, 5].map (fun k =>
      let m := partly (applyPatch demoT demoWorld (.ok demoApply) (State.init demoMem)).1 k
      (callDest demoT 0 m 0x1000, callDest demoT 8 m 0x2000, m.load 0x5008 8 = le 8 0x400123)) =
    [(some 0x1004, some 0x200c, False), (some 0x700001, some 0x200c, False), (some 0x700001, some 0x700001, False),
      (some 0x700001, some 0x700001, True)] := by
  simp only [List.map, List.cons.injEq, Prod.mk.injEq, eq_iff_iff, iff_false, iff_true]
  decide +kernel

/-- **C212** While a patch is being reverted, its references (and those of all others) stay as they are at every moment, so that
calls that still go to its functions find them. -/
theorem C212_revert_partial {m₀ : Mem} {F slot : Nat → Prop} (htl : t.length = 44) (hI : Image m₀ F slot) (fuel : Nat) (reqs : List Request)
    (hfit : ∀ r ∈ reqs, Fits F slot r) (s : State) (as : List Nat) (h : serveAll t fuel (State.init m₀) reqs = some (s, as))
    (w : World) (m : Meta) (ht : m.type = 2) (s1 : State)
    (ha : applyPatch t w (.ok m) s = (s1, 0)) (k : Nat) (i : Nat) (hi : slot i) : partly s1 k i = s.mem i := by
  have hinv := serveAll_inv htl hI reqs hfit _ _ _ _ (init_inv hI) h
  obtain ⟨hs, hl⟩ := accepted hinv.clean ha
  have hg := hinv.good (.inl hs)
  obtain ⟨hc, rfl⟩ := loadPatch_revert hl ht
  obtain ⟨-, ws, hem, hin, -⟩ := revertPatch_ok htl hI hg hg.ready hc
  obtain ⟨ws', hsub, hh, -⟩ := hem.holds [] hinv.clean.holds
  rw [List.nil_append] at hh
  rw [partly_holds hh (by rw [hem.ver]; exact hinv.clean.ver), hem.mem]
  refine perform_inSet ((hin.sublist hsub).sublist (List.take_sublist k ws')) ?_
  rintro ⟨f, hf, hp⟩
  exact hI.slots f i hf ((inPad_iff _ _ _).mpr (cell_pad ((inStub_iff _ _ _).mp hp))) hi

example : ∃ s, serveAll demoT 10 (State.init demoMem) [.apply demoWorld (.ok demoApply)] = some (s, [0]) ∧
    ∀ k, (partly (applyPatch demoT demoWorld (.ok (demoRevert 1 libA)) s).1 k).load 0x5008 8 = s.mem.load 0x5008 8 := by
  have h : (serveAll demoT 10 (State.init demoMem) [.apply demoWorld (.ok demoApply)]).map (fun p =>
      (p.2, (applyPatch demoT demoWorld (.ok (demoRevert 1 libA)) p.1).2)) = some ([0], 0) := by decide +kernel
  cases hr : serveAll demoT 10 (State.init demoMem) [.apply demoWorld (.ok demoApply)] with
  | none => rw [hr] at h; cases h
  | some p =>
    rw [hr] at h
    obtain ⟨s, as⟩ := p
    simp only [Option.map_some, Option.some.injEq, Prod.mk.injEq] at h
    obtain ⟨rfl, hz⟩ := h
    refine ⟨s, rfl, fun k => load_congr fun i a b => ?_⟩
    refine C212_revert_partial demo_t demo_image 10 _ ?_ s _ hr demoWorld _ rfl _ (Prod.ext rfl hz) k i ⟨by omega, by omega⟩
    intro r hm
    rw [List.mem_singleton.mp hm]
    exact demo_apply_fits

/-- **C212** When the tool has executed the queue, the process is in the state that follows the request: the one of which C161
tells where calls go, and C164 what the references hold. -/
theorem C212_end_partial (fuel : Nat) (s : State) (w : World) (m : Except Nat Meta) (s' : State) (e : Nat)
    (h : serve t fuel s (.apply w m) = some (s', e)) :
    ∃ n, ∀ k, n ≤ k → partly (applyPatch t w m s).1 k = s'.mem := by
  simp only [serve, Option.some.injEq, Prod.mk.injEq] at h
  rw [← h.1]
  exact partly_end _

example : ∃ n, ∀ k, n ≤ k → partly (applyPatch demoT demoWorld (.ok demoApply) (State.init demoMem)).1 k =
    (settle (applyPatch demoT demoWorld (.ok demoApply) (State.init demoMem)).1).mem :=
  C212_end_partial 10 (State.init demoMem) demoWorld (.ok demoApply) _ _ rfl

end Verif.Power.Early
