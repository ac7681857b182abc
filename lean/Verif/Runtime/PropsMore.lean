import Verif.Runtime.Props

/-! Properties C28, C29, C30 and C50. -/

namespace Verif.Runtime

open Spec
open Verif.InsnQueue (Req Holds touches Queue)
open Verif.InsnQueue.Spec (perform)
open Verif.X86.Spec (callDest body)

/-! ### C28 -/

theorem depsOk_right {a b : List Applied} (h : DepsOk (a ++ b)) : DepsOk b := by
  induction a with
  | nil => exact h
  | cons x a ih => exact ih h.2

/-- The loop ends if no patch of another library depends on one of this library. -/
theorem revertAllLoop_total {m₀ F slot base} (hI : Image m₀ F slot) (fuel : Nat) (kept rem : List Applied) (ret : Err)
    (s : State) (vm ps) (hg : Good m₀ F s vm ps)
    (hready : ∀ f, F f → X86.patchable s.mem f = true ∧ X86.hasEndbr s.mem f = X86.hasEndbr m₀ f)
    (hp : s.patches = kept ++ rem) (hk : ∀ p ∈ kept, p.lib ≠ base.take pathLen)
    (hdep : ∀ p ∈ s.patches, p.lib ≠ base.take pathLen → ∀ q ∈ s.patches, q.lib = base.take pathLen → q.id ∉ p.deps)
    (hf : rem.length ≤ fuel) : ∃ r, revertAllLoop base fuel rem ret s = some r := by
  induction fuel generalizing kept rem ret s vm ps with
  | zero =>
    have : rem = [] := List.length_eq_zero_iff.mp (by omega)
    subst this
    exact ⟨_, rfl⟩
  | succ fuel ih =>
    cases rem with
    | nil => exact ⟨_, rfl⟩
    | cons p rest =>
      have hpm : p ∈ s.patches := by rw [hp]; simp
      have hpl : p.lib.take pathLen = p.lib := List.take_of_length_le (hg.libs p hpm)
      simp only [List.length_cons] at hf
      by_cases hl : base.take pathLen = p.lib.take pathLen
      · have hpb : p.lib = base.take pathLen := by rw [hl, hpl]
        have hids := hg.ids
        rw [hp, List.map_append, List.map_cons, List.nodup_append] at hids
        obtain ⟨n1, n2, n3⟩ := hids
        rw [List.nodup_cons] at n2
        have hd2 : DepsOk (p :: rest) := by
          have := hg.deps
          rw [hp] at this
          exact depsOk_right this
        have hc : canRevert s p.id = 0 := by
          unfold canRevert
          have h1 : ¬ (getApplied s p.id).isNone = true := by
            unfold getApplied
            rw [Option.isNone_iff_eq_none, List.find?_eq_none]
            intro hc
            exact hc p hpm (by simp)
          rw [if_neg h1, if_neg]
          rw [List.any_eq_true]
          rintro ⟨x, hx, hxd⟩
          rw [List.any_eq_true] at hxd
          obtain ⟨d, hd, hdp⟩ := hxd
          have : d = p.id := by simpa using hdp
          subst this
          by_cases hxl : x.lib = base.take pathLen
          · have hx' := hx
            rw [hp, List.mem_append] at hx'
            rcases hx' with hx' | hx'
            · exact hk x hx' hxl
            · rcases List.mem_cons.mp hx' with rfl | hx'
              · obtain ⟨q, hq, hqid⟩ := hd2.1 _ hd
                exact n2.1 (List.mem_map.mpr ⟨q, hq, hqid⟩)
              · obtain ⟨q, hq, hqid⟩ := hd2.2.mem x hx' _ hd
                exact n2.1 (List.mem_map.mpr ⟨q, hq, hqid⟩)
          · exact hdep x hx hxl p hpm hpb hd
        rw [revertAllLoop, if_pos hl]
        simp only [hc, ne_eq, not_true_eq_false, if_false]
        obtain ⟨r0, w1, e1, -, g1, -, p1⟩ := revertPatch_ok hI hg hready hc
        generalize hrp : revertPatch s p.id = rp at *
        obtain ⟨s1, e⟩ := rp
        simp only at r0 e1 g1 p1
        subst r0
        simp only [not_true_eq_false, if_false]
        have hfil : s.patches.filter (fun q => q.id ≠ p.id) = kept ++ rest := by
          rw [hp, List.filter_append, List.filter_cons, if_neg (by simp)]
          congr 1
          · rw [List.filter_eq_self]
            intro q hq
            have : q.id ≠ p.id := n3 _ (List.mem_map.mpr ⟨q, hq, rfl⟩) _ (by simp)
            simpa using this
          · rw [List.filter_eq_self]
            intro q hq
            have : q.id ≠ p.id := fun hc => n2.1 (List.mem_map.mpr ⟨q, hq, hc⟩)
            simpa using this
        refine ih kept rest 0 s1 _ _ g1 (by rw [e1.mem]; exact hready) (by rw [p1, hfil]) hk ?_ (by omega)
        intro x hx hxl q hq hql
        rw [p1] at hx hq
        exact hdep x (List.mem_filter.mp hx).1 hxl q (List.mem_filter.mp hq).1 hql
      · rw [revertAllLoop, if_neg hl]
        have hpb : ¬ p.lib = base.take pathLen := by
          intro hc; apply hl; rw [hpl, hc]
        refine ih (kept ++ [p]) rest ret s vm ps hg hready (by simp [hp]) ?_ hdep (by omega)
        intro q hq
        rcases List.mem_append.mp hq with hq | hq
        · exact hk q hq
        · simp only [List.mem_singleton] at hq; subst hq; exact hpb

/-- **C28**, the part that is true: in a reachable process, if no applied patch of another library depends
on a patch of this library, revert-all returns (within as many loop iterations as there are applied
patches); if the library has patches it answers 0 and calls go where they would without them, otherwise
it answers ENOPATCH or ENOTARGETLIB and nothing changes.  Missing: dependencies of other libraries'
patches, for which the claim is false, see `C28_revert_all_hangs`. -/
theorem C28_revert_all_partial {m₀ : Mem} {F slot : Nat → Prop} (hI : Image m₀ F slot) (fuel fuel' : Nat)
    (reqs : List Request) (hfit : ∀ r ∈ reqs, Fits m₀ F slot r) (s : State) (as : List Nat)
    (h : serveAll fuel (State.init m₀) reqs = some (s, as)) (he : s.err = ENONE)
    (w : World) (hb : w.busy = false) (lib : Str) (hlen : basenameOff lib < 256)
    (hdep : ∀ p ∈ trackAll [] reqs as, p.lib ≠ libKey lib →
      ∀ q ∈ trackAll [] reqs as, q.lib = libKey lib → q.id ∉ p.deps)
    (hf : (trackAll [] reqs as).length ≤ fuel') :
    ∃ s' a, serve fuel' s (.revertAll w lib) = some (s', a) ∧
      ((∃ p ∈ trackAll [] reqs as, p.lib = libKey lib) → a = 0 ∧ (healthy s'.err → ∀ f, F f →
        callDest s'.mem f = some ((replacement ((trackAll [] reqs as).filter (fun p => p.lib ≠ libKey lib)) f).getD
          (body m₀ f)))) ∧
      ((∀ p ∈ trackAll [] reqs as, p.lib ≠ libKey lib) → s' = s ∧
        a = if w.libBase (getBasename lib) = 0xff then ENOTARGETLIB else ENOPATCH) := by
  have hi := serveAll_inv hI reqs hfit _ _ _ _ (init_inv hI) h
  have hg := hi.good (Or.inl he)
  have hex : ∃ r, revertAllLoop (getBasename lib) fuel' s.patches ENOTARGETLIB s = some r := by
    refine revertAllLoop_total hI fuel' [] s.patches ENOTARGETLIB s s.mem _ hg (hg.ready hI.range) rfl (by simp) ?_ ?_
    · intro p hp hpl q hq hql hd
      rw [← hg.shown] at hdep
      exact hdep (toPatch p) (List.mem_map.mpr ⟨p, hp, rfl⟩) hpl (toPatch q) (List.mem_map.mpr ⟨q, hq, rfl⟩) hql
        (by simpa [toPatch] using hd)
    · have := congrArg List.length hg.shown
      rw [List.length_map] at this
      omega
  obtain ⟨⟨s1, e⟩, hl⟩ := hex
  have hra : revertAll fuel' w lib s = some (if e = ENOTARGETLIB ∧ w.libBase (getBasename lib) ≠ 0xff
      then (s1, ENOPATCH) else (s1, e)) := by
    unfold revertAll
    rw [gate_clean hi.clean]
    simp only [he, hb, ne_eq, not_true_eq_false, if_false, Bool.false_eq_true]
    rw [if_neg (show ¬ pathLen ≤ basenameOff lib by unfold pathLen; omega), hl]
    rfl
  obtain ⟨ws, -, -, -, -, a5, a6⟩ := revertAllLoop_ok hI fuel' s.patches ENOTARGETLIB s s.mem _ hg
    (hg.ready hI.range) hg.libs hg.ids s1 e hl
  by_cases hx : ∃ p ∈ s.patches, p.lib = libKey lib
  · have he0 := a5 hx
    subst he0
    rw [if_neg (by rintro ⟨h, -⟩; simp [ENOTARGETLIB] at h)] at hra
    have hs : serve fuel' s (.revertAll w lib) = some (settle s1, 0) := by simp only [serve, hra, Option.map_some]
    refine ⟨settle s1, 0, hs, fun _ => ⟨rfl, ?_⟩, ?_⟩
    · intro hh f hf
      have h2 := serve_inv hI (r := .revertAll w lib) (by simp [Fits]) hi hs
      have := (h2.good hh).calls hI.range f hf
      simpa [track] using this
    · intro hno
      obtain ⟨p, hp, hpl⟩ := hx
      rw [← hg.shown] at hno
      exact absurd hpl (hno (toPatch p) (List.mem_map.mpr ⟨p, hp, rfl⟩))
  · obtain ⟨rfl, rfl⟩ := a6 (fun p hp hc => hx ⟨p, hp, hc⟩)
    refine ⟨s1, if w.libBase (getBasename lib) = 0xff then ENOTARGETLIB else ENOPATCH, ?_, ?_, fun _ => ⟨rfl, rfl⟩⟩
    · simp only [serve, hra, Option.map_some]
      by_cases hlb : w.libBase (getBasename lib) = 0xff
      · simp [hlb, settle_clean hi.clean]
      · simp [hlb, settle_clean hi.clean]
    · rintro ⟨p, hp, hpl⟩
      rw [← hg.shown] at hp
      obtain ⟨p', hp', rfl⟩ := List.mem_map.mp hp
      exact absurd ⟨p', hp', hpl⟩ hx

theorem revertAllLoop_hangs {m₀ F slot base} (hI : Image m₀ F slot) (fuel : Nat) (rem : List Applied) (ret : Err)
    (s : State) (vm ps) (hg : Good m₀ F s vm ps)
    (hready : ∀ f, F f → X86.patchable s.mem f = true ∧ X86.hasEndbr s.mem f = X86.hasEndbr m₀ f)
    (hrem : ∀ x ∈ rem, x.lib.length ≤ pathLen) (p q : Applied) (hp : p ∈ rem) (hpl : p.lib = base.take pathLen)
    (hq : q ∈ s.patches) (hql : q.lib ≠ base.take pathLen) (hd : p.id ∈ q.deps)
    (hsub : ∀ x ∈ rem, x.lib = base.take pathLen → q.id ≠ x.id) :
    revertAllLoop base fuel rem ret s = none := by
  induction fuel generalizing rem ret s vm ps with
  | zero =>
    cases rem with
    | nil => simp at hp
    | cons x rest => rfl
  | succ fuel ih =>
    cases rem with
    | nil => simp at hp
    | cons x rest =>
      have hxl : x.lib.take pathLen = x.lib := List.take_of_length_le (hrem x (by simp))
      by_cases hl : base.take pathLen = x.lib.take pathLen
      · by_cases hc : canRevert s x.id ≠ 0
        · exact revertAllLoop_stuck hl hc _ _
        have hc : canRevert s x.id = 0 := Decidable.not_not.mp hc
        have hxp : p ∈ rest := by
          rcases List.mem_cons.mp hp with rfl | h
          · exact absurd rfl ((canRevert_zero hc).2 q hq _ hd)
          · exact h
        rw [revertAllLoop, if_pos hl]
        simp only [hc, ne_eq, not_true_eq_false, if_false]
        obtain ⟨r0, w1, e1, -, g1, -, p1⟩ := revertPatch_ok hI hg hready hc
        generalize hrp : revertPatch s x.id = rp at *
        obtain ⟨s1, e⟩ := rp
        simp only at r0 e1 g1 p1
        subst r0
        simp only [not_true_eq_false, if_false]
        refine ih rest 0 s1 _ _ g1 (by rw [e1.mem]; exact hready) (fun y hy => hrem y (by simp [hy])) hxp ?_
          (fun y hy => hsub y (by simp [hy]))
        rw [p1, List.mem_filter]
        exact ⟨hq, by simpa using hsub x (by simp) (by rw [hl, hxl])⟩
      · have hxp : p ∈ rest := by
          rcases List.mem_cons.mp hp with rfl | h
          · exact absurd (by rw [hxl, hpl]) hl
          · exact h
        rw [revertAllLoop, if_neg hl]
        exact ih rest ret s vm ps hg hready (fun y hy => hrem y (by simp [hy])) hxp hq
          (fun y hy => hsub y (by simp [hy]))

/-- Negation of **C28**: whenever an applied patch of another library depends on an applied patch of this
library, revert-all never returns (the `continue` in lib/ulp.c:119 does not advance). -/
theorem C28_revert_all_hangs {m₀ : Mem} {F slot : Nat → Prop} (hI : Image m₀ F slot) (fuel : Nat)
    (reqs : List Request) (hfit : ∀ r ∈ reqs, Fits m₀ F slot r) (s : State) (as : List Nat)
    (h : serveAll fuel (State.init m₀) reqs = some (s, as)) (he : s.err = ENONE)
    (w : World) (hb : w.busy = false) (lib : Str) (hlen : basenameOff lib < 256)
    (p q : Patch) (hp : p ∈ trackAll [] reqs as) (hpl : p.lib = libKey lib)
    (hq : q ∈ trackAll [] reqs as) (hql : q.lib ≠ libKey lib) (hd : p.id ∈ q.deps) (fuel' : Nat) :
    serve fuel' s (.revertAll w lib) = none := by
  have hi := serveAll_inv hI reqs hfit _ _ _ _ (init_inv hI) h
  have hg := hi.good (Or.inl he)
  have hids := hi.book.ids
  rw [← hg.shown] at hp hq hids
  obtain ⟨p', hp', rfl⟩ := List.mem_map.mp hp
  obtain ⟨q', hq', rfl⟩ := List.mem_map.mp hq
  have hl : revertAllLoop (getBasename lib) fuel' s.patches ENOTARGETLIB s = none := by
    refine revertAllLoop_hangs hI fuel' s.patches _ s s.mem _ hg (hg.ready hI.range) hg.libs p' q' hp' hpl hq' hql
      (by simpa [toPatch] using hd) ?_
    intro x hx hxl hc
    have := inj_of_nodup_map hg.ids hq' hx hc
    rw [this] at hql
    exact hql hxl
  simp only [serve]
  unfold revertAll
  rw [gate_clean hi.clean]
  simp only [he, hb, ne_eq, not_true_eq_false, if_false, Bool.false_eq_true]
  rw [if_neg (show ¬ pathLen ≤ basenameOff lib by unfold pathLen; omega), hl]
  rfl

/-- Two libraries; the patch of libB depends on the first patch of libA. -/
def demoTwoLibs : List Request :=
  [.apply demoWorld (.ok (demoPatch 1 libA [0x1000] [] [])),
   .apply demoWorld (.ok (demoPatch 2 libA [0x1000] [[1]] [])),
   .apply demoWorld (.ok (demoPatch 3 libB [0x2000] [[1]] []))]

theorem demo_two_fit : ∀ r ∈ demoTwoLibs, Fits demoMem demoF demoSlot r := by
  intro r hr
  simp only [demoTwoLibs, List.mem_cons, List.not_mem_nil, or_false] at hr
  rcases hr with rfl | rfl | rfl <;> exact demo_fits _ _ _ _ _ (by simp [demoF]) (by simp)

theorem demo_two_run : ∃ s, serveAll 10 (State.init demoMem) demoTwoLibs = some (s, [0, 0, 0]) ∧ s.err = ENONE :=
  run_of_eval (by decide +kernel)

/-- Concrete case of the hang, and of a revert-all that works in the same process. -/
example : ∃ s, serveAll 10 (State.init demoMem) demoTwoLibs = some (s, [0, 0, 0]) ∧
    (∀ fuel, serve fuel s (.revertAll demoWorld libA) = none) ∧
    ∃ s', serve 3 s (.revertAll demoWorld libB) = some (s', 0) := by
  obtain ⟨s, h, he⟩ := demo_two_run
  refine ⟨s, h, ?_, ?_⟩
  · exact C28_revert_all_hangs demo_image 10 demoTwoLibs demo_two_fit s _ h he demoWorld rfl libA (by decide)
      (patchOf demoWorld (demoPatch 1 libA [0x1000] [] [])) (patchOf demoWorld (demoPatch 3 libB [0x2000] [[1]] []))
      (by decide +kernel) (by decide) (by decide +kernel) (by decide) (by decide)
  · obtain ⟨s', a, h1, h2, -⟩ := C28_revert_all_partial demo_image 10 3 demoTwoLibs demo_two_fit s _ h he demoWorld rfl
      libB (by decide) (by decide +kernel) (by decide +kernel)
    exact ⟨s', by rw [h1, (h2 (by decide +kernel)).1]⟩

/-! ### C29 -/

theorem applyUnits_univ {w lib id} (us : List UnitM) (s : State) : (applyUnits w lib id us s).1.univ = s.univ := by
  induction us generalizing s with
  | nil => rfl
  | cons u us ih =>
    simp only [applyUnits]
    split
    · rfl
    split
    · rfl
    split
    · simp only [patchAddr_univ]; exact (addDetour_ok _ _ _).univ
    · rw [ih]; simp only [patchAddr_univ]; exact (addDetour_ok _ _ _).univ

theorem applyRefs_univ {w tb ti so} (refs : List RefM) (s : State) : (applyRefs w tb ti so refs s).1.univ = s.univ := by
  induction refs generalizing s with
  | nil => rfl
  | cons r rs ih =>
    simp only [applyRefs]
    by_cases hc : r.patchOff = 0 ∧ (if r.patchOff = 0 then w.newSym r.refName else (so + r.patchOff) % 2 ^ 64) = 0
    · rw [if_pos hc]
    · rw [if_neg hc, ih]; rfl

theorem applyAllUnits_univ {w m} (s : State) : (applyAllUnits w m s).1.univ = s.univ + 1 := by
  unfold applyAllUnits
  have := applyUnits_univ (w := w) (lib := m.lib) (id := m.id) m.units { s with univ := s.univ + 1 }
  generalize applyUnits w m.lib m.id m.units { s with univ := s.univ + 1 } = p at this
  obtain ⟨s1, e⟩ := p
  simp only at this ⊢
  split
  · exact this
  split
  · exact this
  split
  · exact this
  split
  · exact this
  · rw [applyRefs_univ, this]

theorem revertPatch_univ (s : State) (id) : (revertPatch s id).1.univ = s.univ + 1 := by
  unfold revertPatch stateRemove
  simp only
  exact (revertRoots_fields id s.roots { s with univ := s.univ + 1 }).2.2.1

theorem loadPatch_univ {w m} (s : State) : s.univ ≤ (loadPatch w m s).1.univ ∧ (loadPatch w m s).1.univ ≤ s.univ + 1 := by
  generalize hl : loadPatch w m s = p
  unfold loadPatch at hl
  simp only at hl
  by_cases h1 : (if m.type = 2 then 0 else sanity w m s) ≠ 0
  · rw [if_pos h1] at hl; subst hl; simp
  rw [if_neg h1] at hl
  split at hl
  · subst hl; simp
  split at hl
  · split at hl
    · subst hl; simp
    · rename_i s0 hu
      obtain ⟨-, -, -, f4, -⟩ := stateUpdate_fields hu
      have := applyAllUnits_univ (w := w) (m := m) s0
      split at hl <;> subst hl <;> simp only [this, f4] <;> omega
  split at hl
  · split at hl
    · subst hl; simp
    · rw [← hl, revertPatch_univ]; omega
  split at hl <;> subst hl <;> simp

theorem settle_univ (s : State) : (settle s).univ = s.univ := rfl

theorem gate_univ (w) (s : State) : (gate w s).1.univ = s.univ := by
  unfold gate
  simp only
  split
  · rfl
  split
  · rfl
  split <;> rfl

theorem revertAllLoop_univ {base fuel rem ret} {s : State} {r} (h : revertAllLoop base fuel rem ret s = some r) :
    s.univ ≤ r.1.univ := by
  induction fuel generalizing rem ret s with
  | zero =>
    cases rem with
    | nil => simp only [revertAllLoop, Option.some.injEq] at h; subst h; exact Nat.le_refl _
    | cons p rest => simp [revertAllLoop] at h
  | succ fuel ih =>
    cases rem with
    | nil => simp only [revertAllLoop, Option.some.injEq] at h; subst h; exact Nat.le_refl _
    | cons p rest =>
      rw [revertAllLoop] at h
      split at h
      · simp only at h
        split at h
        · exact ih h
        · have hu := revertPatch_univ s p.id
          generalize revertPatch s p.id = rp at *
          obtain ⟨s1, e⟩ := rp
          simp only at h hu
          split at h
          · simp only [Option.some.injEq] at h; subst h; simp only; omega
          · have := ih h; omega
      · exact ih h

/-- **C29** The counter never decreases, in any state and for any request. -/
theorem C29_counter_never_decreases (fuel : Nat) (s : State) (r : Request) (s' : State) (a : Nat)
    (h : serve fuel s r = some (s', a)) : s.univ ≤ s'.univ := by
  cases r with
  | apply w m =>
    simp only [serve, Option.some.injEq, Prod.mk.injEq] at h
    obtain ⟨rfl, rfl⟩ := h
    rw [settle_univ]
    unfold applyPatch
    have := gate_univ w s
    generalize gate w s = g at *
    obtain ⟨s1, o⟩ := g
    cases o with
    | some e => simp only at this ⊢; omega
    | none =>
      cases m with
      | error e => simp only at this ⊢; omega
      | ok m =>
        simp only at this ⊢
        have := (loadPatch_univ (w := w) (m := m) s1).1
        omega
  | revertAll w lib =>
    simp only [serve] at h
    cases hr : revertAll fuel w lib s with
    | none => simp [hr] at h
    | some p =>
      simp only [hr, Option.map_some, Option.some.injEq, Prod.mk.injEq] at h
      obtain ⟨rfl, rfl⟩ := h
      rw [settle_univ]
      unfold revertAll at hr
      have := gate_univ w s
      generalize gate w s = g at *
      obtain ⟨s1, o⟩ := g
      cases o with
      | some e => simp only [Option.some.injEq] at hr; subst hr; simp only at this ⊢; omega
      | none =>
        simp only at hr this
        split at hr
        · simp only [Option.some.injEq] at hr; subst hr; simp only; omega
        cases hl : revertAllLoop (getBasename lib) fuel s1.patches ENOTARGETLIB s1 with
        | none => simp [hl] at hr
        | some q =>
          have h1 := revertAllLoop_univ hl
          simp only [hl, Option.map_some, Option.some.injEq] at hr
          rw [← hr]
          split <;> simp only <;> omega
  | check id =>
    simp only [serve, Option.some.injEq, Prod.mk.injEq] at h
    obtain ⟨rfl, rfl⟩ := h
    exact Nat.le_refl _
  | toggle =>
    simp only [serve, Option.some.injEq] at h
    have : s' = (toggle s).1 := by rw [h]
    rw [this]
    unfold toggle
    simp only
    split
    · simp
    split <;> simp

/-- **C29** In a reachable process, the counter grows by exactly one when an apply or revert is accepted,
by the number of patches taken away when a revert-all is, and stays the same for refused requests,
checks and enabling/disabling (unless they record an internal error). -/
theorem C29_counter_counts {m₀ : Mem} {F slot : Nat → Prop} (hI : Image m₀ F slot) (fuel : Nat)
    (reqs : List Request) (hfit : ∀ r ∈ reqs, Fits m₀ F slot r) (s : State) (as : List Nat)
    (h : serveAll fuel (State.init m₀) reqs = some (s, as)) (r : Request) (hfr : Fits m₀ F slot r)
    (s' : State) (a : Nat) (h' : serve fuel s r = some (s', a)) :
    (∀ w m, r = .apply w m → a = 0 → (∃ m', m = .ok m') → s'.univ = s.univ + 1) ∧
    (∀ w lib, r = .revertAll w lib → a = 0 → s'.univ = s.univ +
      ((trackAll [] reqs as).filter (fun p => p.lib = libKey lib)).length) ∧
    ((a ≠ 0 ∨ (∃ id, r = .check id) ∨ r = .toggle) → healthy s'.err → s'.univ = s.univ) := by
  have hi := serveAll_inv hI reqs hfit _ _ _ _ (init_inv hI) h
  refine ⟨?_, ?_, ?_⟩
  · rintro w m rfl rfl ⟨m, rfl⟩
    simp only [serve, Option.some.injEq, Prod.mk.injEq] at h'
    obtain ⟨rfl, h0⟩ := h'
    rw [settle_univ]
    unfold applyPatch at h0 ⊢
    rw [gate_clean hi.clean] at h0 ⊢
    by_cases he : s.err ≠ ENONE
    · simp only [if_pos he] at h0; exact absurd h0 he
    simp only [if_neg he] at h0 ⊢
    have he' : s.err = ENONE := Decidable.not_not.mp he
    cases hb : w.busy with
    | true => simp [hb, EAGAIN] at h0
    | false =>
    simp only [hb, Bool.false_eq_true, if_false] at h0 ⊢
    have hg := hi.good (Or.inl he')
    generalize hl : loadPatch w m s = p at *
    obtain ⟨s1, e⟩ := p
    simp only at h0
    subst h0
    by_cases ht : m.type = 1
    · obtain ⟨-, -, -, -, hu, -⟩ := loadPatch_apply_ok hI hfr ht hg hl
      exact hu
    · by_cases ht2 : m.type = 2
      · obtain ⟨-, rfl⟩ := loadPatch_revert hl ht2
        exact revertPatch_univ s m.id
      · exact absurd rfl (loadPatch_other hl ht ht2)
  · rintro w lib rfl rfl
    simp only [serve] at h'
    cases hr : revertAll fuel w lib s with
    | none => simp [hr] at h'
    | some p =>
    simp only [hr, Option.map_some, Option.some.injEq, Prod.mk.injEq] at h'
    obtain ⟨rfl, h0⟩ := h'
    rw [settle_univ]
    unfold revertAll at hr
    rw [gate_clean hi.clean] at hr
    by_cases he : s.err ≠ ENONE
    · simp only [if_pos he, Option.some.injEq] at hr; subst hr; exact absurd h0 he
    simp only [if_neg he] at hr
    have he' : s.err = ENONE := Decidable.not_not.mp he
    cases hb : w.busy with
    | true => simp only [hb, if_true, Option.some.injEq] at hr; subst hr; simp [EAGAIN] at h0
    | false =>
    simp only [hb, Bool.false_eq_true, if_false] at hr
    split at hr
    · simp only [Option.some.injEq] at hr; subst hr; simp [EOVERFLOW] at h0
    have hg := hi.good (Or.inl he')
    cases hl : revertAllLoop (getBasename lib) fuel s.patches ENOTARGETLIB s with
    | none => simp [hl] at hr
    | some q =>
    obtain ⟨s1, e⟩ := q
    obtain ⟨ws, -, -, -, a4, -, -⟩ := revertAllLoop_ok hI fuel s.patches ENOTARGETLIB s s.mem _ hg
      (hg.ready hI.range) hg.libs hg.ids s1 e hl
    simp only [hl, Option.map_some, Option.some.injEq] at hr
    have hp : p.1 = s1 := by rw [← hr]; split <;> rfl
    rw [hp, a4, ← hg.shown, List.filter_map, List.length_map]
    rfl
  · intro hcase hh
    cases r with
    | check id =>
      simp only [serve, Option.some.injEq, Prod.mk.injEq] at h'
      rw [← h'.1]
    | toggle =>
      simp only [serve, Option.some.injEq] at h'
      obtain ⟨e, hte⟩ := (C23_toggle_only_blocks s).2.2
      have : s' = (toggle s).1 := by rw [h']
      rw [this, hte]
    | apply w m =>
      have ha : a ≠ 0 := by
        rcases hcase with h | ⟨_, h⟩ | h
        · exact h
        · exact absurd h (by simp)
        · exact absurd h (by simp)
      simp only [serve, Option.some.injEq, Prod.mk.injEq] at h'
      obtain ⟨rfl, rfl⟩ := h'
      unfold applyPatch at ha hh ⊢
      rw [gate_clean hi.clean] at ha hh ⊢
      by_cases he : s.err ≠ ENONE
      · simp only [if_pos he]; rfl
      simp only [if_neg he] at ha hh ⊢
      cases hb : w.busy with
      | true => simp only [if_true]; rfl
      | false =>
      simp only [hb, Bool.false_eq_true, if_false] at ha hh ⊢
      cases m with
      | error e => rfl
      | ok m =>
      simp only at ha hh ⊢
      generalize hl : loadPatch w m s = p at *
      obtain ⟨s1, e⟩ := p
      simp only at ha hh ⊢
      rcases loadPatch_refused hl ha with rfl | ⟨ht, s0, s2, hu, hall, rfl⟩
      · rfl
      · exfalso
        have : (settle { s2 with err := EUNKNOWN }).err = EUNKNOWN := rfl
        rw [this] at hh
        rcases hh with hh | hh <;> simp [EUNKNOWN, ENONE, EUSRBLOCKED] at hh
    | revertAll w lib =>
      have ha : a ≠ 0 := by
        rcases hcase with h | ⟨_, h⟩ | h
        · exact h
        · exact absurd h (by simp)
        · exact absurd h (by simp)
      simp only [serve] at h'
      cases hr : revertAll fuel w lib s with
      | none => simp [hr] at h'
      | some p =>
      simp only [hr, Option.map_some, Option.some.injEq, Prod.mk.injEq] at h'
      obtain ⟨rfl, rfl⟩ := h'
      rw [settle_univ]
      unfold revertAll at hr
      rw [gate_clean hi.clean] at hr
      by_cases he : s.err ≠ ENONE
      · simp only [if_pos he, Option.some.injEq] at hr; subst hr; rfl
      simp only [if_neg he] at hr
      have he' : s.err = ENONE := Decidable.not_not.mp he
      cases hb : w.busy with
      | true => simp only [hb, if_true, Option.some.injEq] at hr; subst hr; rfl
      | false =>
      simp only [hb, Bool.false_eq_true, if_false] at hr
      split at hr
      · simp only [Option.some.injEq] at hr; subst hr; rfl
      have hg := hi.good (Or.inl he')
      cases hl : revertAllLoop (getBasename lib) fuel s.patches ENOTARGETLIB s with
      | none => simp [hl] at hr
      | some q =>
      obtain ⟨s1, e⟩ := q
      obtain ⟨ws, -, -, -, a4, a5, a6⟩ := revertAllLoop_ok hI fuel s.patches ENOTARGETLIB s s.mem _ hg
        (hg.ready hI.range) hg.libs hg.ids s1 e hl
      simp only [hl, Option.map_some, Option.some.injEq] at hr
      by_cases hx : ∃ p ∈ s.patches, p.lib = (getBasename lib).take pathLen
      · have := a5 hx
        subst this
        rw [if_neg (by rintro ⟨h, -⟩; simp [ENOTARGETLIB] at h)] at hr
        rw [← hr] at ha
        exact absurd rfl ha
      · obtain ⟨-, rfl⟩ := a6 (fun p hp hc => hx ⟨p, hp, hc⟩)
        rw [← hr]
        split <;> rfl

/-- **C29** In a reachable process without recorded error, if libpulp keeps an active replacement for a
function, then calls go to an active one whose counter value is the largest. -/
theorem C29_largest_in_force {m₀ : Mem} {F slot : Nat → Prop} (hI : Image m₀ F slot) (fuel : Nat)
    (reqs : List Request) (hfit : ∀ r ∈ reqs, Fits m₀ F slot r) (s : State) (as : List Nat)
    (h : serveAll fuel (State.init m₀) reqs = some (s, as)) (hh : healthy s.err)
    (r : Root) (hr : r ∈ s.roots) (d : Detour) (hd : d ∈ r.detours) (hda : d.active = true) :
    ∃ d₀ ∈ r.detours, d₀.active = true ∧ callDest s.mem r.addr = some d₀.target ∧
      (∀ d ∈ r.detours, d.active = true → d.univ ≤ d₀.univ) ∧ d₀.univ ≤ s.univ := by
  have hg := (serveAll_inv hI reqs hfit _ _ _ _ (init_inv hI) h).good hh
  have hst := stackOf_root hg.nodup hr
  cases hf : r.detours.find? (fun d => d.active) with
  | none =>
    rw [List.find?_eq_none] at hf
    exact absurd hda (hf d hd)
  | some d₀ =>
    have hmem := List.mem_of_find?_eq_some hf
    have hact : d₀.active = true := by simpa using List.find?_some hf
    have htop : top (stackOf s.roots r.addr) = some d₀.target := by rw [hst]; unfold top; rw [hf]; rfl
    refine ⟨d₀, hmem, hact, ?_, ?_, ?_⟩
    · rw [hg.calls hI.range _ (hg.inF r hr), ← hg.top, htop]; rfl
    · intro x hx hxa
      have hpw := (hg.univs r.addr).1
      rw [hst] at hpw
      obtain ⟨-, a, b, hab, hna⟩ := List.find?_eq_some_iff_append.mp hf
      rw [hab] at hpw hx
      rcases List.mem_append.mp hx with hx | hx
      · have := hna x hx; simp [hxa] at this
      · rcases List.mem_cons.mp hx with rfl | hx
        · exact Nat.le_refl _
        · have := (List.pairwise_append.mp hpw).2.1
          exact (List.pairwise_cons.mp this).1 x hx
    · have := (hg.univs r.addr).2 d₀ (by rw [hst]; exact hmem)
      exact this

example : ((serveAll 10 (State.init demoMem) demoTwoLibs).map fun p => (p.1.univ, p.1.err)) = some (3, ENONE) ∧
    ((serveAll 10 (State.init demoMem) (demoTwoLibs ++ [.revertAll demoWorld libB])).map fun p => p.1.univ) = some 4 ∧
    ((serveAll 10 (State.init demoMem) demoTwoLibs).map fun p => p.1.roots.map fun r => r.detours.length) = some [1, 2] := by
  decide +kernel

/-! ### C30 -/

/-- **C30** After any history of requests from a fresh process, whether they were accepted, refused or led
to an internal error, every byte outside of the entry pads of functions named in some request and
outside of the reference slots declared by some request is what it was at the start. -/
theorem C30_only_pads_and_references {m₀ : Mem} {F slot : Nat → Prop} (hI : Image m₀ F slot) (fuel : Nat)
    (reqs : List Request) (hfit : ∀ r ∈ reqs, Fits m₀ F slot r) (s : State) (as : List Nat)
    (h : serveAll fuel (State.init m₀) reqs = some (s, as)) (i : Nat)
    (hp : ∀ f, namesFunction reqs f → ¬ inPad m₀ f i) (hr : ¬ declaresReference reqs i) :
    s.mem i = m₀ i := by
  have hI' : Image m₀ (fun f => F f ∧ namesFunction reqs f) (fun i => slot i ∧ declaresReference reqs i) :=
    ⟨fun f hf => hI.range f hf.1, fun f hf => hI.pad f hf.1, fun f g i hf hg => hI.disjoint f g i hf.1 hg.1,
     fun f i hf hi hs => hI.slots f i hf.1 hi hs.1⟩
  have hfit' : ∀ r ∈ reqs, Fits m₀ (fun f => F f ∧ namesFunction reqs f) (fun i => slot i ∧ declaresReference reqs i) r := by
    intro r hr
    have := hfit r hr
    cases r with
    | apply w m =>
      cases m with
      | error e => trivial
      | ok m =>
        intro ht
        obtain ⟨h1, h2⟩ := this ht
        refine ⟨?_, ?_⟩
        · intro u hu
          rcases h1 u hu with h0 | ⟨h0, h3, h4⟩
          · exact Or.inl h0
          · exact Or.inr ⟨⟨h0, w, m, hr, ht, u, hu, rfl⟩, h3, h4⟩
        · intro x hx so hso
          obtain ⟨h3, h4⟩ := h2 x hx so hso
          exact ⟨h3, fun i hi1 hi2 => ⟨h4 i hi1 hi2, w, m, so, hr, ht, hso, x, hx, hi1, hi2⟩⟩
    | revertAll w lib => trivial
    | check id => trivial
    | toggle => trivial
  refine (serveAll_inv hI' reqs hfit' _ _ _ _ (init_inv hI') h).frame i ?_
  rintro (⟨f, hf, hi⟩ | hi)
  · exact hp f hf.2 hi
  · exact hr hi.2

example : ∃ s as, serveAll 10 (State.init demoMem) demoReqs = some (s, as) ∧ s.mem 0x1002 = 0x90 ∧
    s.mem 0x3000 = 0x90 ∧ s.mem 0x1000 = 0xeb := by
  have hd : (serveAll 10 (State.init demoMem) demoReqs).map (fun p => (p.1.mem 0x1002, p.1.mem 0x3000, p.1.mem 0x1000)) =
    some (0x90, 0x90, 0xeb) := by decide +kernel
  cases hs : serveAll 10 (State.init demoMem) demoReqs with
  | none => simp [hs] at hd
  | some p =>
    obtain ⟨s, as⟩ := p
    simp only [hs, Option.map_some, Option.some.injEq, Prod.mk.injEq] at hd
    exact ⟨s, as, rfl, hd⟩

/-! ### C50 -/

theorem perform_refs {w so tb ti} (refs : List RefM)
    (hdis : refs.Pairwise fun a b => refAddr w so a + refSize a ≤ refAddr w so b ∨
      refAddr w so b + refSize b ≤ refAddr w so a) (m : Mem) :
    ∀ r ∈ refs, (perform m (refs.map fun r => Req.write (refAddr w so r) (refBytes tb ti r))).load
      (refAddr w so r) (refSize r) = refBytes tb ti r := by
  induction refs generalizing m with
  | nil => simp
  | cons x refs ih =>
    rw [List.pairwise_cons] at hdis
    intro r hr
    rw [List.map_cons]
    rcases List.mem_cons.mp hr with rfl | hr
    · have : (perform (m.store (refAddr w so r) (refBytes tb ti r))
          (refs.map fun r => Req.write (refAddr w so r) (refBytes tb ti r))).load (refAddr w so r) (refSize r) =
          (m.store (refAddr w so r) (refBytes tb ti r)).load (refAddr w so r) (refSize r) := by
        apply load_congr
        intro i h1 h2
        apply InsnQueue.perform_out
        intro q hq ht
        obtain ⟨y, hy, rfl⟩ := List.mem_map.mp hq
        simp only [touches, refBytes_length] at ht
        have := hdis.1 y hy
        omega
      rw [perform, this]
      have h2 := load_store (m := m) (a := refAddr w so r) (bytes := refBytes tb ti r)
      rw [refBytes_length] at h2
      exact h2
    · rw [perform]
      exact ih hdis.2 _ r hr

theorem references_of_inv {m₀ : Mem} {F slot : Nat → Prop} (hI : Image m₀ F slot) (fuel : Nat)
    (s : State) (ps : List Patch) (hi : Inv m₀ F slot s ps)
    (w : World) (m : Meta) (ht : m.type = 1) (hfm : Fits m₀ F slot (.apply w (.ok m)))
    (so : Nat) (hso : w.soBase = some so)
    (hdis : m.refs.Pairwise fun a b => refAddr w so a + refSize a ≤ refAddr w so b ∨
      refAddr w so b + refSize b ≤ refAddr w so a)
    (s' : State) (h' : serve fuel s (.apply w (.ok m)) = some (s', 0)) (hh : healthy s'.err)
    (r : RefM) (hr : r ∈ m.refs) :
    if r.tls then
      leVal (s'.mem.load (refAddr w so r) 8) = w.tlsIdx (getBasename m.lib) % 2 ^ 64 ∧
      leVal (s'.mem.load (refAddr w so r + 8) 8) = r.targetOff % 2 ^ 64
    else leVal (s'.mem.load (refAddr w so r) 8) = (w.libBase (getBasename m.lib) + r.targetOff) % 2 ^ 64 := by
  have key : s'.mem.load (refAddr w so r) (refSize r) =
      refBytes (w.libBase (getBasename m.lib)) (w.tlsIdx (getBasename m.lib)) r := by
    simp only [serve, Option.some.injEq, Prod.mk.injEq] at h'
    obtain ⟨rfl, h0⟩ := h'
    unfold applyPatch at h0 hh ⊢
    rw [gate_clean hi.clean] at h0 hh ⊢
    by_cases he : s.err ≠ ENONE
    · simp only [if_pos he] at h0; exact absurd h0 he
    simp only [if_neg he] at h0 hh ⊢
    have he' : s.err = ENONE := Decidable.not_not.mp he
    cases hb : w.busy with
    | true => simp [hb, EAGAIN] at h0
    | false =>
    simp only [hb, Bool.false_eq_true, if_false] at h0 hh ⊢
    have hg := hi.good (Or.inl he')
    generalize hl : loadPatch w m s = p at *
    obtain ⟨s1, e⟩ := p
    simp only at h0 hh ⊢
    subst h0
    obtain ⟨ws, a1, -, -, -, so', hso', hws⟩ := loadPatch_apply_ok hI hfm ht hg hl
    rw [hso] at hso'
    injection hso' with hso'
    subst hso'
    obtain ⟨ws', -, heq, hs⟩ := settle_emits hi.clean a1
    rw [hs] at hh ⊢
    simp only at hh ⊢
    rw [heq (by rcases hh with h | h <;> rw [h] <;> decide), hws, perform_append]
    exact perform_refs m.refs hdis _ r hr
  cases htls : r.tls with
  | true =>
    simp only [refSize, refBytes, htls, if_true] at key ⊢
    rw [load_append s'.mem _ 8 8] at key
    obtain ⟨k1, k2⟩ := List.append_inj key (by simp)
    rw [k1, k2, leVal_le, leVal_le]
    exact ⟨rfl, rfl⟩
  | false =>
    simp only [refSize, refBytes, htls, Bool.false_eq_true, if_false] at key ⊢
    rw [key, leVal_le]

/-- **C50** After a successful apply in a reachable process, every data reference the patch declares holds
the run-time address of the target datum: load address of the target library plus the datum's offset; a
thread-local one holds the library's TLS module id followed by the offset. -/
theorem C50_references_point_at_target {m₀ : Mem} {F slot : Nat → Prop} (hI : Image m₀ F slot) (fuel : Nat)
    (reqs : List Request) (hfit : ∀ r ∈ reqs, Fits m₀ F slot r) (s : State) (as : List Nat)
    (h : serveAll fuel (State.init m₀) reqs = some (s, as))
    (w : World) (m : Meta) (ht : m.type = 1) (hfm : Fits m₀ F slot (.apply w (.ok m)))
    (so : Nat) (hso : w.soBase = some so)
    (hdis : m.refs.Pairwise fun a b => refAddr w so a + refSize a ≤ refAddr w so b ∨
      refAddr w so b + refSize b ≤ refAddr w so a)
    (s' : State) (h' : serve fuel s (.apply w (.ok m)) = some (s', 0)) (hh : healthy s'.err)
    (r : RefM) (hr : r ∈ m.refs) :
    if r.tls then
      leVal (s'.mem.load (refAddr w so r) 8) = w.tlsIdx (getBasename m.lib) % 2 ^ 64 ∧
      leVal (s'.mem.load (refAddr w so r + 8) 8) = r.targetOff % 2 ^ 64
    else leVal (s'.mem.load (refAddr w so r) 8) = (w.libBase (getBasename m.lib) + r.targetOff) % 2 ^ 64 :=
  references_of_inv hI fuel s _ (serveAll_inv hI reqs hfit _ _ _ _ (init_inv hI) h) w m ht hfm so hso hdis s' h' hh r hr

example : ∃ s', serve 10 (State.init demoMem) (.apply demoWorld (.ok (demoPatch 1 libA [0x1000] [] demoRefs))) =
      some (s', 0) ∧ s'.err = ENONE ∧ leVal (s'.mem.load 0x5008 8) = 0x400123 := by
  have hd : (serve 10 (State.init demoMem) (.apply demoWorld (.ok (demoPatch 1 libA [0x1000] [] demoRefs)))).map
      (fun p => (p.2, p.1.err)) = some (0, ENONE) := by decide +kernel
  cases hs : serve 10 (State.init demoMem) (.apply demoWorld (.ok (demoPatch 1 libA [0x1000] [] demoRefs))) with
  | none => simp [hs] at hd
  | some p =>
    obtain ⟨s', a⟩ := p
    simp only [hs, Option.map_some, Option.some.injEq, Prod.mk.injEq] at hd
    obtain ⟨rfl, he⟩ := hd
    refine ⟨s', rfl, he, ?_⟩
    have hf : Fits demoMem demoF demoSlot (.apply demoWorld (.ok (demoPatch 1 libA [0x1000] [] demoRefs))) := by
      refine demo_fits _ _ _ _ _ (by simp [demoF]) ?_
      intro r hr
      simp only [demoRefs, List.mem_singleton] at hr
      subst hr
      simp [refAddr, refSize, demoSlot]
      omega
    have := C50_references_point_at_target demo_image 10 [] (by simp) (State.init demoMem) [] rfl demoWorld
      (demoPatch 1 libA [0x1000] [] demoRefs) rfl hf 0x5000 rfl (by simp [demoPatch, demoRefs]) s' hs (Or.inl he)
      (demoRefs.head (by decide)) (by decide)
    exact this

/-! ### Further concrete cases -/

/-- The queue is not empty between the library's and the tool's half of an apply. -/
example := C06_nonempty_queue_refused 10
  (applyPatch demoWorld (.ok (demoPatch 1 libA [0x1000] [] [])) (State.init demoMem)).1 (by decide +kernel)
  demoWorld (.ok (demoPatch 2 libA [0x2000] [] [])) libA

/-- `C19_revert_undoes_exactly`, `C19_apply_then_revert` and the other theorems over histories, on the
history `demoStack`. -/
example : ∃ s s', serveAll 10 (State.init demoMem) demoStack = some (s, [0, 0]) ∧
    serve 10 s (.apply demoWorld (.ok (demoRevert 1 libA))) = some (s', 0) ∧
    callDest s'.mem 0x2000 = some 0x2002 ∧ callDest s'.mem 0x1000 = some 0x700002 := by
  have hd : ((serveAll 10 (State.init demoMem) demoStack).bind fun p =>
      (serve 10 p.1 (.apply demoWorld (.ok (demoRevert 1 libA)))).map fun q => (p.2, q.2, q.1.err)) =
      some ([0, 0], 0, ENONE) := by decide +kernel
  cases hs : serveAll 10 (State.init demoMem) demoStack with
  | none => simp [hs] at hd
  | some p =>
    obtain ⟨s, as⟩ := p
    cases hs' : serve 10 s (.apply demoWorld (.ok (demoRevert 1 libA))) with
    | none => simp [hs, hs'] at hd
    | some q =>
      obtain ⟨s', a⟩ := q
      simp only [hs, hs', Option.bind_some, Option.map_some, Option.some.injEq, Prod.mk.injEq] at hd
      obtain ⟨rfl, rfl, he⟩ := hd
      refine ⟨s, s', rfl, hs', ?_, ?_⟩
      · rw [C19_revert_undoes_exactly demo_image 10 demoStack demo_stack_fit s _ hs demoWorld (demoRevert 1 libA) rfl
          s' hs' (Or.inl he) 0x2000 (Or.inr rfl)]
        decide +kernel
      · rw [C19_revert_undoes_exactly demo_image 10 demoStack demo_stack_fit s _ hs demoWorld (demoRevert 1 libA) rfl
          s' hs' (Or.inl he) 0x1000 (Or.inl rfl)]
        decide +kernel

example : ∃ s s₁ s₂, serveAll 10 (State.init demoMem) demoStack = some (s, [0, 0]) ∧
    serve 10 s (.apply demoWorld (.ok (demoPatch 3 libA [0x1000, 0x2000] [[1]] []))) = some (s₁, 0) ∧
    serve 10 s₁ (.apply demoWorld (.ok (demoRevert 3 libA))) = some (s₂, 0) ∧
    callDest s₂.mem 0x1000 = callDest s.mem 0x1000 := by
  have hd : ((serveAll 10 (State.init demoMem) demoStack).bind fun p =>
      (serve 10 p.1 (.apply demoWorld (.ok (demoPatch 3 libA [0x1000, 0x2000] [[1]] [])))).bind fun q =>
      (serve 10 q.1 (.apply demoWorld (.ok (demoRevert 3 libA)))).map fun r => (p.2, p.1.err, q.2, r.2, r.1.err)) =
      some ([0, 0], ENONE, 0, 0, ENONE) := by decide +kernel
  cases hs : serveAll 10 (State.init demoMem) demoStack with
  | none => simp [hs] at hd
  | some p =>
    obtain ⟨s, as⟩ := p
    cases hs' : serve 10 s (.apply demoWorld (.ok (demoPatch 3 libA [0x1000, 0x2000] [[1]] []))) with
    | none => simp [hs, hs'] at hd
    | some q =>
      obtain ⟨s₁, a⟩ := q
      cases hs'' : serve 10 s₁ (.apply demoWorld (.ok (demoRevert 3 libA))) with
      | none => simp [hs, hs', hs''] at hd
      | some r =>
        obtain ⟨s₂, b⟩ := r
        simp only [hs, hs', hs'', Option.bind_some, Option.map_some, Option.some.injEq, Prod.mk.injEq] at hd
        obtain ⟨rfl, he, rfl, rfl, he'⟩ := hd
        exact ⟨s, s₁, s₂, rfl, hs', hs'', C19_apply_then_revert demo_image 10 demoStack demo_stack_fit s _ hs
          demoWorld demoWorld (demoPatch 3 libA [0x1000, 0x2000] [[1]] []) (demoRevert 3 libA) rfl rfl rfl
          (demo_fits _ _ _ _ _ (by simp [demoF]) (by simp)) s₁ s₂ hs' hs'' (Or.inl he') (Or.inl he) 0x1000 (Or.inl rfl)⟩

example : ∃ s as, serveAll 10 (State.init demoMem) demoReqs = some (s, as) ∧
    ((trackAll [] demoReqs as).map (fun p => p.id)).Nodup := by
  obtain ⟨s, h, -⟩ := demo_run
  exact ⟨s, _, h, C20_applied_is_a_set demo_image 10 demoReqs demo_reqs_fit s _ h⟩

example := C22_libpulp_refuses 10 { State.init badMem with err := EUNKNOWN } (by decide) demoWorld
  (.ok (demoPatch 7 libA [0x1000] [] [])) libA

/-- Both halves of `C23_toggle_only_blocks`: a healthy and a broken process. -/
example : toggle (toggle (State.init demoMem)).1 = (State.init demoMem, ENONE) ∧
    toggle { State.init demoMem with err := EUNKNOWN } = ({ State.init demoMem with err := EUNKNOWN }, EUNKNOWN) :=
  ⟨Prod.ext ((C23_toggle_only_blocks (State.init demoMem)).2.1 (Or.inl rfl)) rfl,
    (C23_toggle_only_blocks { State.init demoMem with err := EUNKNOWN }).1 (by unfold healthy; decide)⟩

example : ∃ s, serveAll 10 (State.init demoMem) demoStack = some (s, [0, 0]) ∧
    serveAll 10 s (List.replicate 3 (.apply { demoWorld with busy := true } (.ok (demoRevert 2 libA))) ++ [.check [1]]) =
      some (s, [EAGAIN, EAGAIN, EAGAIN, 1]) := by
  obtain ⟨s, h, he⟩ := demo_stack_run
  refine ⟨s, h, ?_⟩
  rw [C24_retry_same 10 s (reachable_idle demo_image 10 demoStack demo_stack_fit s _ h) he _ _
    (by intro r hr; rw [List.eq_of_mem_replicate hr]; rfl)]
  have hc := C20_check_exact demo_image 10 demoStack demo_stack_fit s _ h he [1]
  rw [if_pos (by decide +kernel)] at hc
  simp [serveAll, hc]

/-- Counters after the history `demoTwoLibs` and a request more. -/
example : ∃ s s', serveAll 10 (State.init demoMem) demoTwoLibs = some (s, [0, 0, 0]) ∧
    serve 10 s (.revertAll demoWorld libB) = some (s', 0) ∧ s.univ ≤ s'.univ ∧ s'.univ = s.univ + 1 := by
  obtain ⟨s, h, he⟩ := demo_two_run
  obtain ⟨s', a, h1, h2, -⟩ := C28_revert_all_partial demo_image 10 10 demoTwoLibs demo_two_fit s _ h he demoWorld rfl
      libB (by decide) (by decide +kernel) (by decide +kernel)
  have ha := (h2 (by decide +kernel)).1
  rw [ha] at h1
  refine ⟨s, s', h, h1, C29_counter_never_decreases 10 s _ s' _ h1, ?_⟩
  rw [(C29_counter_counts demo_image 10 demoTwoLibs demo_two_fit s _ h (.revertAll demoWorld libB) trivial s' _ h1).2.1
    demoWorld libB rfl rfl]
  rfl

/-- The function at 0x1000 has two detours in force after `demoStack`; the newest is the one taken. -/
example : ∃ s, serveAll 10 (State.init demoMem) demoStack = some (s, [0, 0]) ∧
    ∃ r ∈ s.roots, ∃ d₀ ∈ r.detours, d₀.active = true ∧ callDest s.mem r.addr = some d₀.target := by
  have hd : ((serveAll 10 (State.init demoMem) demoStack).map fun p =>
      (p.2, p.1.err, decide (∃ r ∈ p.1.roots, ∃ d ∈ r.detours, d.active = true))) = some ([0, 0], ENONE, true) := by
    decide +kernel
  cases hs : serveAll 10 (State.init demoMem) demoStack with
  | none => simp [hs] at hd
  | some p =>
    obtain ⟨s, as⟩ := p
    simp only [hs, Option.map_some, Option.some.injEq, Prod.mk.injEq, decide_eq_true_eq] at hd
    obtain ⟨rfl, he, r, hr, d, hdm, hda⟩ := hd
    obtain ⟨d₀, h1, h2, h3, -⟩ := C29_largest_in_force demo_image 10 demoStack demo_stack_fit s _ hs (Or.inl he) r hr d hdm hda
    exact ⟨s, rfl, r, hr, d₀, h1, h2, h3⟩

/-- A byte inside a patched function, past the pad. -/
example : ∃ s as, serveAll 10 (State.init demoMem) demoStack = some (s, as) ∧ s.mem 0x1002 = demoMem 0x1002 := by
  obtain ⟨s, h, -⟩ := demo_stack_run
  refine ⟨s, _, h, C30_only_pads_and_references demo_image 10 demoStack demo_stack_fit s _ h 0x1002 ?_ ?_⟩
  · rintro f ⟨w, m, hm, -, u, hu, rfl⟩
    simp only [demoStack, List.mem_cons, List.not_mem_nil, or_false, Request.apply.injEq, Except.ok.injEq] at hm
    rcases hm with ⟨rfl, rfl⟩ | ⟨rfl, rfl⟩ <;> simp [demoPatch] at hu <;>
      simp only [inPad, demo_body, demoWorld] <;> rcases hu with rfl | rfl <;> simp
  · rintro ⟨w, m, B, hm, -, hB, r, hr, h⟩
    simp only [demoStack, List.mem_cons, List.not_mem_nil, or_false, Request.apply.injEq, Except.ok.injEq] at hm
    rcases hm with ⟨rfl, rfl⟩ | ⟨rfl, rfl⟩ <;> simp [demoPatch] at hr

end Verif.Runtime
