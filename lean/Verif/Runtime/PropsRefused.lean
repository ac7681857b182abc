import Verif.Runtime.Props

/-! Property C25 in general: what is left of a livepatch that is refused when some of its functions have been replaced. -/

namespace Verif.Runtime

open Spec
open Verif.X86.Spec (callDest body)

theorem addDetour_patches (s : State) (p : List Applied) (old : Nat) (d : Detour) :
    addDetour { s with patches := p } old d = { addDetour s old d with patches := p } := by
  unfold addDetour
  dsimp only
  by_cases h : s.roots.any (fun r => r.addr == old) = true
  · rw [if_pos h, if_pos h]
  · rw [if_neg h, if_neg h]

theorem addDetour_rest (s : State) (old : Nat) (d : Detour) :
    (addDetour s old d).mem = s.mem ∧ (addDetour s old d).q = s.q ∧ (addDetour s old d).univ = s.univ := by
  unfold addDetour
  dsimp only
  by_cases h : s.roots.any (fun r => r.addr == old) = true
  · rw [if_pos h]; exact ⟨rfl, rfl, rfl⟩
  · rw [if_neg h]; exact ⟨rfl, rfl, rfl⟩

theorem patchAddr_withPatches (s : State) (p : List Applied) (old new : Nat) (en : Bool) :
    patchAddr { s with patches := p } old new en = ({ (patchAddr s old new en).1 with patches := p }, (patchAddr s old new en).2) := by
  unfold patchAddr
  dsimp only
  cases X86.patchAddr s.mem old new en with
  | error e => rfl
  | ok x => rfl

/-- The list of patches makes no difference to the units. -/
theorem applyUnits_patches {w lib id} (p : List Applied) (us : List UnitM) (s : State) :
    applyUnits w lib id us { s with patches := p } =
      ({ (applyUnits w lib id us s).1 with patches := p }, (applyUnits w lib id us s).2) := by
  induction us generalizing s with
  | nil => rfl
  | cons u us ih =>
    simp only [applyUnits]
    split
    · rfl
    split
    · rfl
    rw [addDetour_patches, patchAddr_withPatches]
    generalize patchAddr (addDetour s _ _) _ _ true = q
    obtain ⟨s1, e⟩ := q
    dsimp only
    split
    · rfl
    · exact ih s1

/-- Nor do other answers than those about symbols. -/
theorem applyUnits_world {w w' : World} {lib id} (h1 : w'.oldSym = w.oldSym) (h2 : w'.newSym = w.newSym) (us : List UnitM) (s : State) :
    applyUnits w' lib id us s = applyUnits w lib id us s := by
  induction us generalizing s with
  | nil => rfl
  | cons u us ih =>
    simp only [applyUnits, h1, h2, ih]

theorem applyUnits_stopped {w lib id} (us : List UnitM) (s s2 : State) (h : applyUnits w lib id us s = (s2, ENOPATCHABLE)) :
    ∃ pre u post s1, us = pre ++ u :: post ∧ applyUnits w lib id pre s = (s1, 0) ∧ s2.mem = s1.mem ∧ s2.q = s1.q := by
  induction us generalizing s with
  | nil => simp [applyUnits, ENOPATCHABLE] at h
  | cons u us ih =>
    simp only [applyUnits] at h
    by_cases ho : w.oldSym (getBasename lib) u.oldName u.oldAddr = 0
    · rw [if_pos ho] at h; simp [ENOPATCHABLE, ENOOLDFUNC] at h
    rw [if_neg ho] at h
    by_cases hn : w.newSym u.newName = 0
    · rw [if_pos hn] at h; simp [ENOPATCHABLE, ENONEWFUNC] at h
    rw [if_neg hn] at h
    generalize hd : addDetour s (w.oldSym (getBasename lib) u.oldName u.oldAddr)
      { univ := s.univ, target := w.newSym u.newName, id := id, active := true } = sd at h
    obtain ⟨r1, r2, -⟩ := addDetour_rest s (w.oldSym (getBasename lib) u.oldName u.oldAddr)
      { univ := s.univ, target := w.newSym u.newName, id := id, active := true }
    rw [hd] at r1 r2
    generalize hp : patchAddr sd (w.oldSym (getBasename lib) u.oldName u.oldAddr) (w.newSym u.newName) true = q at h
    obtain ⟨s1, e⟩ := q
    simp only at h
    by_cases he : e > 0
    · rw [if_pos he] at h
      simp only [Prod.mk.injEq] at h
      obtain ⟨rfl, rfl⟩ := h
      refine ⟨[], u, us, s, rfl, rfl, ?_⟩
      unfold patchAddr at hp
      cases hx : X86.patchAddr sd.mem (w.oldSym (getBasename lib) u.oldName u.oldAddr) (w.newSym u.newName) true with
      | error e =>
        rw [hx] at hp
        simp only [Prod.mk.injEq] at hp
        rw [← hp.1]
        exact ⟨r1, r2⟩
      | ok x =>
        rw [hx] at hp
        simp [ENOPATCHABLE] at hp
    · rw [if_neg he] at h
      obtain ⟨pre, v, post, s3, e1, e2, e3⟩ := ih s1 h
      refine ⟨u :: pre, v, post, s3, by rw [e1]; rfl, ?_, e3⟩
      simp only [applyUnits]
      rw [if_neg ho, if_neg hn, hd, hp]
      simp only
      rw [if_neg he]
      exact e2

theorem resolveUnits_pre {w lib} (pre post : List UnitM) {res} (h : resolveUnits w lib (pre ++ post) = some res) :
    ∃ res', resolveUnits w lib pre = some res' := by
  induction pre generalizing res with
  | nil => exact ⟨[], rfl⟩
  | cons u us ih =>
    simp only [List.cons_append, resolveUnits] at h ⊢
    split at h
    · cases h
    rename_i h1
    split at h
    · cases h
    rename_i h2
    rw [if_neg h1, if_neg h2]
    cases hr : resolveUnits w lib (us ++ post) with
    | none => rw [hr] at h; simp at h
    | some x =>
      obtain ⟨y, hy⟩ := ih hr
      exact ⟨_, by rw [hy]; rfl⟩

theorem resolveUnits_world {w w' : World} {lib} (h1 : w'.oldSym = w.oldSym) (h2 : w'.newSym = w.newSym) (us : List UnitM) :
    resolveUnits w' lib us = resolveUnits w lib us := by
  induction us with
  | nil => rfl
  | cons u us ih => simp only [resolveUnits, h1, h2, ih]

/-- The same world, in which the addresses of the library and of the livepatch can be found out. -/
def found (w : World) : World := { w with libBase := fun _ => 1, soBase := some 1 }

theorem refused_loads {w : World} {m : Meta} (ht : m.type = 1) {s s2 : State} (h : loadPatch w m s = (s2, ENOPATCHABLE)) :
    ∃ pre u post s1, m.units = pre ++ u :: post ∧ loadPatch (found w) { m with units := pre, refs := [] } s = (s1, 0) ∧
      s2.mem = s1.mem ∧ s2.q = s1.q := by
  unfold loadPatch at h
  simp only [ht] at h
  rw [if_neg (show ¬ (1 : Nat) = 2 by decide)] at h
  by_cases hs : sanity w m s ≠ 0
  · rw [if_pos hs] at h
    simp only [Prod.mk.injEq] at h
    exfalso
    have := h.2
    unfold sanity at this
    split at this
    · simp [EBUILDID, ENOPATCHABLE] at this
    split at this
    · simp [EDEPEND, ENOPATCHABLE] at this
    split at this <;> simp [EAPPLIED, ENOPATCHABLE] at this
  rw [if_neg hs] at h
  by_cases hd : (1 : Nat) ≠ 2 ∧ (!w.dlopenOk) = true
  · rw [if_pos hd] at h; simp [EDLOPEN, ENOPATCHABLE] at h
  rw [if_neg hd, if_pos trivial] at h
  unfold stateUpdate at h
  cases hr : resolveUnits w m.lib m.units with
  | none => simp [hr, ESTATE, ENOPATCHABLE] at h
  | some res =>
  rw [hr] at h
  simp only [Option.map_some] at h
  unfold applyAllUnits at h
  dsimp only at h
  generalize hp : applyUnits w m.lib m.id m.units _ = q at h
  obtain ⟨s3, e⟩ := q
  simp only at h
  by_cases he : e ≠ 0
  · rw [if_pos he, if_pos he] at h
    simp only [Prod.mk.injEq] at h
    obtain ⟨rfl, rfl⟩ := h
    obtain ⟨pre, u, post, s1, e1, e2, e3, e4⟩ := applyUnits_stopped _ _ _ hp
    obtain ⟨res', hres⟩ := resolveUnits_pre pre (u :: post) (e1 ▸ hr)
    rw [show ∀ (x : State) (p : List Applied), ({ x with patches := p, univ := x.univ + 1 } : State) =
      { ({ x with univ := x.univ + 1 } : State) with patches := p } from fun _ _ => rfl] at e2
    rw [applyUnits_patches] at e2
    simp only [Prod.mk.injEq] at e2
    refine ⟨pre, u, post, { (applyUnits w m.lib m.id pre { s with univ := s.univ + 1 }).1 with
      patches := { id := m.id, lib := (getBasename m.lib).take pathLen, container := m.soName.take pathLen, deps := m.deps.reverse, units := res' } :: s.patches }, e1, ?_, ?_, ?_⟩
    · unfold loadPatch
      simp only [ht]
      rw [if_neg (show ¬ (1 : Nat) = 2 by decide), if_neg (show ¬ sanity (found w) ⟨1, m.id, m.soName, m.lib, pre, m.deps, []⟩ s ≠ 0 from hs),
        if_neg (show ¬ ((1 : Nat) ≠ 2 ∧ (!(found w).dlopenOk) = true) from hd), if_pos trivial]
      unfold stateUpdate
      simp only
      rw [resolveUnits_world (w := w) (w' := found w) rfl rfl, hres]
      simp only [Option.map_some]
      unfold applyAllUnits
      dsimp only
      rw [applyUnits_world (w := w) (w' := found w) rfl rfl]
      rw [show ∀ (x : State) (p : List Applied), ({ x with patches := p, univ := x.univ + 1 } : State) =
        { ({ x with univ := x.univ + 1 } : State) with patches := p } from fun _ _ => rfl]
      rw [applyUnits_patches]
      simp only [e2.2]
      simp [found, applyRefs]
    · rw [← e2.1] at e3; exact e3
    · rw [← e2.1] at e4; exact e4
  · rw [if_neg he] at h
    exfalso
    split at h
    · simp [ENOADDRESS, ENOPATCHABLE] at h
    cases hso : w.soBase with
    | none => simp [hso, EUNKNOWN, ENOPATCHABLE] at h
    | some so =>
    simp only [hso] at h
    split at h
    · simp [ENOADDRESS, ENOPATCHABLE] at h
    rcases applyRefs_error (w := w) (tb := w.libBase (getBasename m.lib)) (ti := w.tlsIdx (getBasename m.lib)) (so := so) m.refs s3 with hz | hz <;>
    · generalize applyRefs w (w.libBase (getBasename m.lib)) (w.tlsIdx (getBasename m.lib)) so m.refs s3 = q at h hz
      obtain ⟨s4, e4⟩ := q
      simp only at h hz
      subst hz
      simp [ENOPATCHABLE, ENONEWFUNC] at h

/-- **C25** (negation, in general) Whatever livepatch is refused because a function cannot be patched, in whatever process without
an error: the memory of the process is the same as if a livepatch with those of its functions that come before that one
had been applied successfully. -/
theorem C25_refused_keeps_first (fuel : Nat) (s : State) (hi : Idle s) (he : s.err = ENONE) (w : World) (m : Meta) (ht : m.type = 1)
    (s' : State) (h : serve fuel s (.apply w (.ok m)) = some (s', ENOPATCHABLE)) :
    ∃ first u others s1, m.units = first ++ u :: others ∧
      serve fuel s (.apply (found w) (.ok { m with units := first, refs := [] })) = some (s1, 0) ∧ s'.mem = s1.mem := by
  simp only [serve, Option.some.injEq, Prod.mk.injEq] at h
  obtain ⟨rfl, h⟩ := h
  have hb : w.busy = false := by
    cases hb : w.busy with
    | false => rfl
    | true =>
      unfold applyPatch at h
      rw [gate_clean hi, if_neg (by simp [he]), hb] at h
      simp [EAGAIN, ENOPATCHABLE] at h
  have go : ∀ (w : World), w.busy = false → ∀ m, applyPatch w (.ok m) s = loadPatch w m s := by
    intro w hb m
    unfold applyPatch
    rw [gate_clean hi, if_neg (by simp [he]), hb]
    rfl
  rw [go w hb] at h ⊢
  obtain ⟨first, u, others, s1, e1, e2, e3, e4⟩ := refused_loads ht (Prod.ext rfl h)
  refine ⟨first, u, others, settle s1, e1, ?_, ?_⟩
  · simp only [serve]
    rw [go (found w) hb, e2]
  · unfold settle
    simp only
    rw [e3, e4]

/-- 0x2000 cannot be patched; what comes of the refused patch is the patch for 0x1000. -/
example : ∃ s' first u others s1, serve 10 (State.init badMem) halfPatch = some (s', ENOPATCHABLE) ∧
    (demoPatch 1 libA [0x1000, 0x2000] [] []).units = first ++ u :: others ∧
    serve 10 (State.init badMem) (.apply (found demoWorld) (.ok { demoPatch 1 libA [0x1000, 0x2000] [] [] with units := first, refs := [] }))
      = some (s1, 0) ∧ s'.mem = s1.mem := by
  obtain ⟨s', h, -⟩ := C25_refused_patch_redirects
  obtain ⟨first, u, others, s1, h1, h2, h3⟩ := C25_refused_keeps_first 10 (State.init badMem) ⟨rfl, rfl, Nat.le_refl _⟩ rfl demoWorld _ rfl s' h
  exact ⟨s', first, u, others, s1, h, h1, h2, h3⟩

theorem applyRefs_stopped {w tb ti so} (refs : List RefM) (s s2 : State) (h : applyRefs w tb ti so refs s = (s2, ENONEWFUNC)) :
    ∃ pre r post, refs = pre ++ r :: post ∧ applyRefs w tb ti so pre s = (s2, 0) := by
  induction refs generalizing s with
  | nil => simp [applyRefs, ENONEWFUNC] at h
  | cons r rs ih =>
    simp only [applyRefs] at h
    by_cases hc : r.patchOff = 0 ∧ (if r.patchOff = 0 then w.newSym r.refName else (so + r.patchOff) % 2 ^ 64) = 0
    · rw [if_pos hc] at h
      simp only [Prod.mk.injEq, and_true] at h
      exact ⟨[], r, rs, rfl, by rw [← h]; rfl⟩
    · rw [if_neg hc] at h
      obtain ⟨pre, v, post, e1, e2⟩ := ih _ h
      refine ⟨r :: pre, v, post, by rw [e1]; rfl, ?_⟩
      simp only [applyRefs]
      rw [if_neg hc]
      exact e2

/-- The apply path up to the units, if it gets there. -/
theorem loadPatch_units {w : World} {m : Meta} (ht : m.type = 1) {s s2 : State} {a : Err} (h : loadPatch w m s = (s2, a))
    (ha : a = ENONEWFUNC ∨ a = ENOADDRESS ∨ a = EUNKNOWN) :
    ∃ res s3, a ≠ 0 ∧ sanity w m s = 0 ∧ w.dlopenOk = true ∧ resolveUnits w m.lib m.units = some res ∧
      applyUnits w m.lib m.id m.units { s with univ := s.univ + 1, patches := { id := m.id, lib := (getBasename m.lib).take pathLen, container := m.soName.take pathLen, deps := m.deps.reverse, units := res } :: s.patches } = (s3, 0) ∧
      (if w.libBase (getBasename m.lib) = 0xff then (s3, ENOADDRESS)
        else match w.soBase with
          | none => (s3, EUNKNOWN)
          | some soBase =>
            if soBase = 0 then (s3, ENOADDRESS)
            else applyRefs w (w.libBase (getBasename m.lib)) (w.tlsIdx (getBasename m.lib)) soBase m.refs s3) =
        ({ s2 with err := (if w.libBase (getBasename m.lib) = 0xff then (s3, ENOADDRESS)
        else match w.soBase with
          | none => (s3, EUNKNOWN)
          | some soBase =>
            if soBase = 0 then (s3, ENOADDRESS)
            else applyRefs w (w.libBase (getBasename m.lib)) (w.tlsIdx (getBasename m.lib)) soBase m.refs s3).1.err }, a) := by
  have ha0 : a ≠ 0 := by rcases ha with rfl | rfl | rfl <;> decide
  unfold loadPatch at h
  simp only [ht] at h
  rw [if_neg (show ¬ (1 : Nat) = 2 by decide)] at h
  by_cases hs : sanity w m s ≠ 0
  · rw [if_pos hs] at h
    simp only [Prod.mk.injEq] at h
    exfalso
    have := h.2
    unfold sanity at this
    split at this
    · rcases ha with rfl | rfl | rfl <;> simp [EBUILDID, ENONEWFUNC, ENOADDRESS, EUNKNOWN] at this
    split at this
    · rcases ha with rfl | rfl | rfl <;> simp [EDEPEND, ENONEWFUNC, ENOADDRESS, EUNKNOWN] at this
    split at this
    · rcases ha with rfl | rfl | rfl <;> simp [EAPPLIED, ENONEWFUNC, ENOADDRESS, EUNKNOWN] at this
    · exact ha0 this.symm
  rw [if_neg hs] at h
  by_cases hd : (1 : Nat) ≠ 2 ∧ (!w.dlopenOk) = true
  · rw [if_pos hd] at h
    rcases ha with rfl | rfl | rfl <;> simp [EDLOPEN, ENONEWFUNC, ENOADDRESS, EUNKNOWN] at h
  rw [if_neg hd, if_pos trivial] at h
  unfold stateUpdate at h
  cases hr : resolveUnits w m.lib m.units with
  | none => rcases ha with rfl | rfl | rfl <;> simp [hr, ESTATE, ENONEWFUNC, ENOADDRESS, EUNKNOWN] at h
  | some res =>
  rw [hr] at h
  simp only [Option.map_some] at h
  unfold applyAllUnits at h
  dsimp only at h
  have her := applyUnits_error (w := w) (lib := m.lib) (id := m.id) m.units { s with univ := s.univ + 1, patches := { id := m.id, lib := (getBasename m.lib).take pathLen, container := m.soName.take pathLen, deps := m.deps.reverse, units := res } :: s.patches } ⟨res, hr⟩
  generalize hp : applyUnits w m.lib m.id m.units _ = q at h her
  obtain ⟨s3, e⟩ := q
  simp only at h her
  by_cases he : e ≠ 0
  · exfalso
    rw [if_pos he, if_pos he] at h
    simp only [Prod.mk.injEq] at h
    rcases her with her | her
    · exact he her
    · rw [← h.2, her] at ha
      rcases ha with h | h | h <;> simp [ENOPATCHABLE, ENONEWFUNC, ENOADDRESS, EUNKNOWN] at h
  · have he : e = 0 := Decidable.not_not.mp he
    subst he
    simp only [ne_eq, not_true_eq_false, if_false] at h
    refine ⟨res, s3, ha0, Decidable.not_not.mp hs, by simpa using hd, rfl, hp, ?_⟩
    generalize (if w.libBase (getBasename m.lib) = 0xff then (s3, ENOADDRESS)
        else match w.soBase with
          | none => (s3, EUNKNOWN)
          | some soBase =>
            if soBase = 0 then (s3, ENOADDRESS)
            else applyRefs w (w.libBase (getBasename m.lib)) (w.tlsIdx (getBasename m.lib)) soBase m.refs s3) = q at h ⊢
    obtain ⟨s4, e4⟩ := q
    simp only at h ⊢
    by_cases h4 : e4 = 0
    · simp [h4] at h
      exact absurd h.2.symm ha0
    · simp [h4] at h
      obtain ⟨rfl, rfl⟩ := h
      rfl

theorem loadPatch_build {w w' : World} {m : Meta} (ht : m.type = 1) {s s3 s4 : State} {res so} {refs : List RefM}
    (h1 : w'.oldSym = w.oldSym) (h2 : w'.newSym = w.newSym) (h3 : w'.buildIdOk = w.buildIdOk) (h4 : w'.dlopenOk = w.dlopenOk)
    (hs : sanity w m s = 0) (hd : w.dlopenOk = true) (hr : resolveUnits w m.lib m.units = some res)
    (hu : applyUnits w m.lib m.id m.units { s with univ := s.univ + 1, patches := { id := m.id, lib := (getBasename m.lib).take pathLen, container := m.soName.take pathLen, deps := m.deps.reverse, units := res } :: s.patches } = (s3, 0))
    (hb : w'.libBase (getBasename m.lib) ≠ 0xff) (hso : w'.soBase = some so) (hso0 : so ≠ 0)
    (hrefs : applyRefs w' (w'.libBase (getBasename m.lib)) (w'.tlsIdx (getBasename m.lib)) so refs s3 = (s4, 0)) :
    loadPatch w' { m with refs := refs } s = (s4, 0) := by
  unfold loadPatch
  simp only [ht]
  have hs' : sanity w' ⟨1, m.id, m.soName, m.lib, m.units, m.deps, refs⟩ s = 0 := by
    rw [← hs]; unfold sanity; rw [h3]
  rw [if_neg (show ¬ (1 : Nat) = 2 by decide), if_neg (by rw [hs']; simp), if_neg (by rw [h4, hd]; simp), if_pos trivial]
  unfold stateUpdate
  simp only
  rw [resolveUnits_world h1 h2, hr]
  simp only [Option.map_some]
  unfold applyAllUnits
  dsimp only
  rw [applyUnits_world h1 h2, hu]
  simp only [ne_eq, not_true_eq_false, if_false]
  rw [if_neg hb, hso]
  simp only
  rw [if_neg hso0, hrefs]
  simp

/-- What is done with an apply request in a process without an error. -/
theorem applyPatch_loads {s : State} (hi : Idle s) (he : s.err = ENONE) {w : World} (hb : w.busy = false) (m : Meta) :
    applyPatch w (.ok m) s = loadPatch w m s := by
  unfold applyPatch
  rw [gate_clean hi, if_neg (by simp [he]), hb]
  rfl

theorem applyPatch_busy {s : State} (hi : Idle s) (he : s.err = ENONE) {w : World} {m : Meta} (h : (applyPatch w (.ok m) s).2 ≠ EAGAIN) :
    w.busy = false := by
  cases hb : w.busy with
  | false => rfl
  | true =>
    unfold applyPatch at h
    rw [gate_clean hi, if_neg (by simp [he]), hb] at h
    simp at h

/-- **C25** (negation, in general) Whatever livepatch is refused because the symbol of a reference is missing from it: the memory of the process is
the same as if the livepatch had been applied successfully with the references that come before that one; all its functions are replaced. -/
theorem C25_refused_keeps_functions (fuel : Nat) (s : State) (hi : Idle s) (he : s.err = ENONE) (w : World) (m : Meta) (ht : m.type = 1)
    (s' : State) (h : serve fuel s (.apply w (.ok m)) = some (s', ENONEWFUNC)) :
    ∃ first r others s1, m.refs = first ++ r :: others ∧
      serve fuel s (.apply w (.ok { m with refs := first })) = some (s1, 0) ∧ s'.mem = s1.mem := by
  simp only [serve, Option.some.injEq, Prod.mk.injEq] at h
  obtain ⟨rfl, h⟩ := h
  have hb := applyPatch_busy (w := w) (m := m) hi he (by rw [h]; decide)
  rw [applyPatch_loads hi he hb] at h ⊢
  obtain ⟨res, s3, -, g1, g2, g3, g4, g5⟩ := loadPatch_units (s2 := (loadPatch w m s).1) (a := ENONEWFUNC) ht (Prod.ext rfl h) (.inl rfl)
  by_cases hl : w.libBase (getBasename m.lib) = 0xff
  · rw [if_pos hl] at g5; simp [ENOADDRESS, ENONEWFUNC] at g5
  rw [if_neg hl] at g5
  cases hso : w.soBase with
  | none => rw [hso] at g5; simp [EUNKNOWN, ENONEWFUNC] at g5
  | some so =>
  rw [hso] at g5
  simp only at g5
  by_cases h0 : so = 0
  · rw [if_pos h0] at g5; simp [ENOADDRESS, ENONEWFUNC] at g5
  rw [if_neg h0] at g5
  obtain ⟨first, r, others, e1, e2⟩ := applyRefs_stopped _ _ _ g5
  have hbuild := loadPatch_build (w := w) (w' := w) ht rfl rfl rfl rfl g1 g2 g3 g4 hl hso h0 e2
  refine ⟨first, r, others, settle (loadPatch w { m with refs := first } s).1, e1, ?_, ?_⟩
  · simp only [serve]
    rw [applyPatch_loads hi he hb, hbuild]
  · rw [hbuild]
    rfl

/-- **C25** (negation, in general) Whatever livepatch is refused because the address of the library or of the livepatch cannot be found out:
the memory of the process is the same as if the livepatch had been applied successfully without references. -/
theorem C25_refused_keeps_all (fuel : Nat) (s : State) (hi : Idle s) (he : s.err = ENONE) (w : World) (m : Meta) (ht : m.type = 1)
    (s' : State) (a : Nat) (ha : a = ENOADDRESS ∨ a = EUNKNOWN) (h : serve fuel s (.apply w (.ok m)) = some (s', a)) :
    ∃ s1, serve fuel s (.apply (found w) (.ok { m with refs := [] })) = some (s1, 0) ∧ s'.mem = s1.mem := by
  simp only [serve, Option.some.injEq, Prod.mk.injEq] at h
  obtain ⟨rfl, h⟩ := h
  have hb := applyPatch_busy (w := w) (m := m) hi he (by rw [h]; rcases ha with rfl | rfl <;> decide)
  rw [applyPatch_loads hi he hb] at h ⊢
  obtain ⟨res, s3, -, g1, g2, g3, g4, g5⟩ := loadPatch_units (s2 := (loadPatch w m s).1) (a := a) ht (Prod.ext rfl h) (.inr ha)
  have := loadPatch_build (w := w) (w' := found w) (so := 1) (s4 := s3) (refs := []) ht rfl rfl rfl rfl g1 g2 g3 g4 (by simp [found]) rfl (by decide) rfl
  refine ⟨settle s3, ?_, ?_⟩
  · simp only [serve]
    rw [applyPatch_loads hi he (w := found w) hb, this]
  · have key : (loadPatch w m s).1.mem = s3.mem ∧ (loadPatch w m s).1.q = s3.q := by
      by_cases hl : w.libBase (getBasename m.lib) = 0xff
      · rw [if_pos hl] at g5
        have := congrArg (fun x => (x.1.mem, x.1.q)) g5
        simp only [Prod.mk.injEq] at this
        exact ⟨this.1.symm, this.2.symm⟩
      rw [if_neg hl] at g5
      cases hso : w.soBase with
      | none =>
        rw [hso] at g5
        have := congrArg (fun x => (x.1.mem, x.1.q)) g5
        simp only [Prod.mk.injEq] at this
        exact ⟨this.1.symm, this.2.symm⟩
      | some so =>
      rw [hso] at g5
      simp only at g5
      by_cases h0 : so = 0
      · rw [if_pos h0] at g5
        have := congrArg (fun x => (x.1.mem, x.1.q)) g5
        simp only [Prod.mk.injEq] at this
        exact ⟨this.1.symm, this.2.symm⟩
      rw [if_neg h0] at g5
      exfalso
      have h2 := congrArg Prod.snd g5
      simp only at h2
      rcases applyRefs_error (w := w) (tb := w.libBase (getBasename m.lib)) (ti := w.tlsIdx (getBasename m.lib)) (so := so) m.refs s3 with hz | hz <;>
        rw [hz] at h2 <;> rcases ha with rfl | rfl <;> simp [ENOADDRESS, EUNKNOWN, ENONEWFUNC] at h2
    unfold settle
    simp only
    rw [key.1, key.2]

/-- The symbol [9] of the reference is missing: 0x1000 and 0x2000 are replaced all the same. -/
def lostWorld : World := { demoWorld with newSym := fun n => if n = [9] then 0 else 0x700001 }

def lostPatch : Meta := demoPatch 1 libA [0x1000, 0x2000] []
  [{ targetName := [1], refName := [9], targetOff := 0x123, patchOff := 0, tls := false }]

example : ∃ s', serve 10 (State.init demoMem) (.apply lostWorld (.ok lostPatch)) = some (s', ENONEWFUNC) ∧
    callDest s'.mem 0x2000 = some 0x700001 ∧ ∃ first r others s1, lostPatch.refs = first ++ r :: others ∧
      serve 10 (State.init demoMem) (.apply lostWorld (.ok { lostPatch with refs := first })) = some (s1, 0) ∧ s'.mem = s1.mem :=
  ⟨_, rfl, by decide +kernel, C25_refused_keeps_functions 10 _ ⟨rfl, rfl, Nat.le_refl _⟩ rfl lostWorld lostPatch rfl _ rfl⟩

/-- The address of the livepatch cannot be found out. -/
example : ∃ s', serve 10 (State.init demoMem) (.apply { lostWorld with soBase := none } (.ok lostPatch)) = some (s', EUNKNOWN) ∧
    callDest s'.mem 0x2000 = some 0x700001 ∧ ∃ s1, serve 10 (State.init demoMem)
      (.apply (found { lostWorld with soBase := none }) (.ok { lostPatch with refs := [] })) = some (s1, 0) ∧ s'.mem = s1.mem :=
  ⟨_, rfl, by decide +kernel, C25_refused_keeps_all 10 _ ⟨rfl, rfl, Nat.le_refl _⟩ rfl { lostWorld with soBase := none } lostPatch rfl _ _ (.inr rfl) rfl⟩

/-! ### C22 -/

/-- **C22** (negation, in general) In a process that has recorded an error and whose queue still has writes of an earlier request (the tool ended before
executing it), whatever request to apply, revert or revert all comes next is answered with that error, and all those writes are made. -/
theorem C22_leftover_executed (fuel : Nat) (s : State) (he : s.err ≠ ENONE) (rs : List InsnQueue.Req) (hq : InsnQueue.Holds s.q rs)
    (hv : s.q.version ≤ 1) (r : Request) (hr : (∃ w m, r = .apply w m) ∨ ∃ w lib, r = .revertAll w lib) :
    ∃ s', serve fuel s r = some (s', s.err) ∧ s'.mem = InsnQueue.Spec.perform s.mem rs := by
  have hset : (settle s).mem = InsnQueue.Spec.perform s.mem rs := by
    unfold settle
    dsimp only
    rw [InsnQueue.toolRun_holds hq hv]
    unfold InsnQueue.applyEffects
    dsimp only
    rw [List.foldl_append]
    have := InsnQueue.apply_events ⟨s.mem, s.q⟩ rs
    unfold InsnQueue.applyEffects at this
    rw [this]
    rfl
  have hg : ∀ w, gate w s = (s, some s.err) := fun w => by unfold gate; rw [if_pos he]
  rcases hr with ⟨w, m, rfl⟩ | ⟨w, lib, rfl⟩
  · refine ⟨settle s, ?_, hset⟩
    simp only [serve, applyPatch, hg]
  · refine ⟨settle s, ?_, hset⟩
    simp only [serve, revertAll, hg, Option.map_some]

/-- A write of 4 bytes at 0x1000 is left in the queue. -/
example : ∃ s s', s = { memwrite (State.init demoMem) 0x1000 [1, 2, 3, 4] with err := EUNKNOWN } ∧
    serve 10 s (.revertAll demoWorld libA) = some (s', EUNKNOWN) ∧ s'.mem.load 0x1000 4 = [1, 2, 3, 4] := by
  have hem := memwrite_emits (State.init demoMem) (a := 0x1000) (bs := [1, 2, 3, 4]) ⟨by decide, by decide⟩
  obtain ⟨ws, -, hh, heq⟩ := hem.holds [] ⟨rfl, rfl, by decide, by simp, trivial⟩
  rw [heq (by decide +kernel)] at hh
  obtain ⟨s', h1, h2⟩ := C22_leftover_executed 10 { memwrite (State.init demoMem) 0x1000 [1, 2, 3, 4] with err := EUNKNOWN } (by decide)
    _ hh (by show (memwrite (State.init demoMem) 0x1000 [1, 2, 3, 4]).q.version ≤ 1; rw [hem.ver]; decide) (.revertAll demoWorld libA) (.inr ⟨_, _, rfl⟩)
  refine ⟨_, s', rfl, h1, ?_⟩
  rw [h2]
  exact load_store

end Verif.Runtime
