import Verif.Power.Props
import Verif.Runtime.PropsRefused

/-! Property C165 in general: what is left on POWER of a livepatch that is refused when its functions have been replaced. -/

namespace Verif.Power

open Verif.Runtime hiding Good Inv area loadPatch_apply_ok applyUnits_world applyRefs_stopped loadPatch_units loadPatch_build applyPatch_loads
  applyPatch_busy
open Verif.Runtime.Spec (Idle)
open Power.Spec (callDest)

theorem applyUnits_world {t : List UInt8} {w w' : World} {lib id} (h1 : w'.oldSym = w.oldSym) (h2 : w'.newSym = w.newSym) (us : List UnitM) (s : State) :
    applyUnits t w' lib id us s = applyUnits t w lib id us s := by
  induction us generalizing s with
  | nil => rfl
  | cons u us ih =>
    simp only [applyUnits, h1, h2, ih]


theorem applyRefs_stopped {w tb ti so} (refs : List RefM) (s s2 : State) (h : applyRefs w tb ti so refs s = (s2, ENONEWFUNC)) :
    ∃ pre r post, refs = pre ++ r :: post ∧ applyRefs w tb ti so pre s = (s2, 0) := by
  induction refs generalizing s with
  | nil => simp [applyRefs, ENONEWFUNC] at h
  | cons r rs ih =>
    simp only [applyRefs] at h
    by_cases hc : r.patchOff = 0 ∧ (if r.patchOff = 0 then w.newSym r.refName else (so + r.patchOff) % 2 ^ 64) = 0
    · rw [if_pos hc] at h
      simp only [Prod.mk.injEq, and_true] at h
      exact ⟨[], r, rs, rfl, by rw [← h]; rfl⟩
    · rw [if_neg hc] at h
      obtain ⟨pre, v, post, e1, e2⟩ := ih _ h
      refine ⟨r :: pre, v, post, by rw [e1]; rfl, ?_⟩
      simp only [applyRefs]
      rw [if_neg hc]
      exact e2

/-- The apply path up to the units, if it gets there. -/
theorem loadPatch_units {t : List UInt8} {w : World} {m : Meta} (ht : m.type = 1) {s s2 : State} {a : Err} (h : loadPatch t w m s = (s2, a))
    (ha : a = ENONEWFUNC ∨ a = ENOADDRESS ∨ a = EUNKNOWN) :
    ∃ res s3, a ≠ 0 ∧ sanity w m s = 0 ∧ w.dlopenOk = true ∧ resolveUnits w m.lib m.units = some res ∧
      applyUnits t w m.lib m.id m.units { s with univ := s.univ + 1, patches := { id := m.id, lib := (getBasename m.lib).take pathLen, container := m.soName.take pathLen, deps := m.deps.reverse, units := res } :: s.patches } = (s3, 0) ∧
      (if w.libBase (getBasename m.lib) = 0xff then (s3, ENOADDRESS)
        else match w.soBase with
          | none => (s3, EUNKNOWN)
          | some soBase =>
            if soBase = 0 then (s3, ENOADDRESS)
            else applyRefs w (w.libBase (getBasename m.lib)) (w.tlsIdx (getBasename m.lib)) soBase m.refs s3) =
        ({ s2 with err := (if w.libBase (getBasename m.lib) = 0xff then (s3, ENOADDRESS)
        else match w.soBase with
          | none => (s3, EUNKNOWN)
          | some soBase =>
            if soBase = 0 then (s3, ENOADDRESS)
            else applyRefs w (w.libBase (getBasename m.lib)) (w.tlsIdx (getBasename m.lib)) soBase m.refs s3).1.err }, a) := by
  have ha0 : a ≠ 0 := by rcases ha with rfl | rfl | rfl <;> decide
  unfold loadPatch at h
  simp only [ht] at h
  rw [if_neg (show ¬ (1 : Nat) = 2 by decide)] at h
  by_cases hs : sanity w m s ≠ 0
  · rw [if_pos hs] at h
    simp only [Prod.mk.injEq] at h
    exfalso
    have := h.2
    unfold sanity at this
    split at this
    · rcases ha with rfl | rfl | rfl <;> simp [EBUILDID, ENONEWFUNC, ENOADDRESS, EUNKNOWN] at this
    split at this
    · rcases ha with rfl | rfl | rfl <;> simp [EDEPEND, ENONEWFUNC, ENOADDRESS, EUNKNOWN] at this
    split at this
    · rcases ha with rfl | rfl | rfl <;> simp [EAPPLIED, ENONEWFUNC, ENOADDRESS, EUNKNOWN] at this
    · exact ha0 this.symm
  rw [if_neg hs] at h
  by_cases hd : (1 : Nat) ≠ 2 ∧ (!w.dlopenOk) = true
  · rw [if_pos hd] at h
    rcases ha with rfl | rfl | rfl <;> simp [EDLOPEN, ENONEWFUNC, ENOADDRESS, EUNKNOWN] at h
  rw [if_neg hd, if_pos trivial] at h
  unfold stateUpdate at h
  cases hr : resolveUnits w m.lib m.units with
  | none => rcases ha with rfl | rfl | rfl <;> simp [hr, ESTATE, ENONEWFUNC, ENOADDRESS, EUNKNOWN] at h
  | some res =>
  rw [hr] at h
  simp only [Option.map_some] at h
  unfold applyAllUnits at h
  dsimp only at h
  have her := applyUnits_error (t := t) (w := w) (lib := m.lib) (id := m.id) m.units { s with univ := s.univ + 1, patches := { id := m.id, lib := (getBasename m.lib).take pathLen, container := m.soName.take pathLen, deps := m.deps.reverse, units := res } :: s.patches } ⟨res, hr⟩
  generalize hp : applyUnits t w m.lib m.id m.units _ = q at h her
  obtain ⟨s3, e⟩ := q
  simp only at h her
  by_cases he : e ≠ 0
  · exfalso
    rw [if_pos he, if_pos he] at h
    simp only [Prod.mk.injEq] at h
    rcases her with her | her
    · exact he her
    · rw [← h.2, her] at ha
      rcases ha with h | h | h <;> simp [ENOPATCHABLE, ENONEWFUNC, ENOADDRESS, EUNKNOWN] at h
  · have he : e = 0 := Decidable.not_not.mp he
    subst he
    simp only [ne_eq, not_true_eq_false, if_false] at h
    refine ⟨res, s3, ha0, Decidable.not_not.mp hs, by simpa using hd, rfl, hp, ?_⟩
    generalize (if w.libBase (getBasename m.lib) = 0xff then (s3, ENOADDRESS)
        else match w.soBase with
          | none => (s3, EUNKNOWN)
          | some soBase =>
            if soBase = 0 then (s3, ENOADDRESS)
            else applyRefs w (w.libBase (getBasename m.lib)) (w.tlsIdx (getBasename m.lib)) soBase m.refs s3) = q at h ⊢
    obtain ⟨s4, e4⟩ := q
    simp only at h ⊢
    by_cases h4 : e4 = 0
    · simp [h4] at h
      exact absurd h.2.symm ha0
    · simp [h4] at h
      obtain ⟨rfl, rfl⟩ := h
      rfl

theorem loadPatch_build {t : List UInt8} {w w' : World} {m : Meta} (ht : m.type = 1) {s s3 s4 : State} {res so} {refs : List RefM}
    (h1 : w'.oldSym = w.oldSym) (h2 : w'.newSym = w.newSym) (h3 : w'.buildIdOk = w.buildIdOk) (h4 : w'.dlopenOk = w.dlopenOk)
    (hs : sanity w m s = 0) (hd : w.dlopenOk = true) (hr : resolveUnits w m.lib m.units = some res)
    (hu : applyUnits t w m.lib m.id m.units { s with univ := s.univ + 1, patches := { id := m.id, lib := (getBasename m.lib).take pathLen, container := m.soName.take pathLen, deps := m.deps.reverse, units := res } :: s.patches } = (s3, 0))
    (hb : w'.libBase (getBasename m.lib) ≠ 0xff) (hso : w'.soBase = some so) (hso0 : so ≠ 0)
    (hrefs : applyRefs w' (w'.libBase (getBasename m.lib)) (w'.tlsIdx (getBasename m.lib)) so refs s3 = (s4, 0)) :
    loadPatch t w' { m with refs := refs } s = (s4, 0) := by
  unfold loadPatch
  simp only [ht]
  have hs' : sanity w' ⟨1, m.id, m.soName, m.lib, m.units, m.deps, refs⟩ s = 0 := by
    rw [← hs]; unfold sanity; rw [h3]
  rw [if_neg (show ¬ (1 : Nat) = 2 by decide), if_neg (by rw [hs']; simp), if_neg (by rw [h4, hd]; simp), if_pos trivial]
  unfold stateUpdate
  simp only
  rw [resolveUnits_world h1 h2, hr]
  simp only [Option.map_some]
  unfold applyAllUnits
  dsimp only
  rw [applyUnits_world h1 h2, hu]
  simp only [ne_eq, not_true_eq_false, if_false]
  rw [if_neg hb, hso]
  simp only
  rw [if_neg hso0, hrefs]
  simp

/-- What is done with an apply request in a process without an error. -/
theorem applyPatch_loads {t : List UInt8} {s : State} (hi : Idle s) (he : s.err = ENONE) {w : World} (hb : w.busy = false) (m : Meta) :
    applyPatch t w (.ok m) s = loadPatch t w m s := by
  unfold applyPatch
  rw [gate_clean hi, if_neg (by simp [he]), hb]
  rfl

theorem applyPatch_busy {t : List UInt8} {s : State} (hi : Idle s) (he : s.err = ENONE) {w : World} {m : Meta} (h : (applyPatch t w (.ok m) s).2 ≠ EAGAIN) :
    w.busy = false := by
  cases hb : w.busy with
  | false => rfl
  | true =>
    unfold applyPatch at h
    rw [gate_clean hi, if_neg (by simp [he]), hb] at h
    simp at h

/-- **C165** (negation, in general) On POWER, whatever livepatch is refused because the symbol of a reference is missing from it: the memory of the process is
the same as if the livepatch had been applied successfully with the references that come before that one; all its functions are replaced. -/
theorem C165_refused_keeps_functions (t : List UInt8) (fuel : Nat) (s : State) (hi : Idle s) (he : s.err = ENONE) (w : World) (m : Meta) (ht : m.type = 1)
    (s' : State) (h : serve t fuel s (.apply w (.ok m)) = some (s', ENONEWFUNC)) :
    ∃ first r others s1, m.refs = first ++ r :: others ∧
      serve t fuel s (.apply w (.ok { m with refs := first })) = some (s1, 0) ∧ s'.mem = s1.mem := by
  simp only [serve, Option.some.injEq, Prod.mk.injEq] at h
  obtain ⟨rfl, h⟩ := h
  have hb := applyPatch_busy (w := w) (m := m) hi he (by rw [h]; decide)
  rw [applyPatch_loads hi he hb] at h ⊢
  obtain ⟨res, s3, -, g1, g2, g3, g4, g5⟩ := loadPatch_units (s2 := (loadPatch t w m s).1) (a := ENONEWFUNC) ht (Prod.ext rfl h) (.inl rfl)
  by_cases hl : w.libBase (getBasename m.lib) = 0xff
  · rw [if_pos hl] at g5; simp [ENOADDRESS, ENONEWFUNC] at g5
  rw [if_neg hl] at g5
  cases hso : w.soBase with
  | none => rw [hso] at g5; simp [EUNKNOWN, ENONEWFUNC] at g5
  | some so =>
  rw [hso] at g5
  simp only at g5
  by_cases h0 : so = 0
  · rw [if_pos h0] at g5; simp [ENOADDRESS, ENONEWFUNC] at g5
  rw [if_neg h0] at g5
  obtain ⟨first, r, others, e1, e2⟩ := applyRefs_stopped _ _ _ g5
  have hbuild := loadPatch_build (w := w) (w' := w) ht rfl rfl rfl rfl g1 g2 g3 g4 hl hso h0 e2
  refine ⟨first, r, others, settle (loadPatch t w { m with refs := first } s).1, e1, ?_, ?_⟩
  · simp only [serve]
    rw [applyPatch_loads hi he hb, hbuild]
  · rw [hbuild]
    rfl

/-- **C165** (negation, in general) On POWER, whatever livepatch is refused because the address of the library or of the livepatch cannot be found out:
the memory of the process is the same as if the livepatch had been applied successfully without references. -/
theorem C165_refused_keeps_all (t : List UInt8) (fuel : Nat) (s : State) (hi : Idle s) (he : s.err = ENONE) (w : World) (m : Meta) (ht : m.type = 1)
    (s' : State) (a : Nat) (ha : a = ENOADDRESS ∨ a = EUNKNOWN) (h : serve t fuel s (.apply w (.ok m)) = some (s', a)) :
    ∃ s1, serve t fuel s (.apply (found w) (.ok { m with refs := [] })) = some (s1, 0) ∧ s'.mem = s1.mem := by
  simp only [serve, Option.some.injEq, Prod.mk.injEq] at h
  obtain ⟨rfl, h⟩ := h
  have hb := applyPatch_busy (w := w) (m := m) hi he (by rw [h]; rcases ha with rfl | rfl <;> decide)
  rw [applyPatch_loads hi he hb] at h ⊢
  obtain ⟨res, s3, -, g1, g2, g3, g4, g5⟩ := loadPatch_units (s2 := (loadPatch t w m s).1) (a := a) ht (Prod.ext rfl h) (.inr ha)
  have := loadPatch_build (w := w) (w' := found w) (so := 1) (s4 := s3) (refs := []) ht rfl rfl rfl rfl g1 g2 g3 g4 (by simp [found]) rfl (by decide) rfl
  refine ⟨settle s3, ?_, ?_⟩
  · simp only [serve]
    rw [applyPatch_loads hi he (w := found w) hb, this]
  · have key : (loadPatch t w m s).1.mem = s3.mem ∧ (loadPatch t w m s).1.q = s3.q := by
      by_cases hl : w.libBase (getBasename m.lib) = 0xff
      · rw [if_pos hl] at g5
        have := congrArg (fun x => (x.1.mem, x.1.q)) g5
        simp only [Prod.mk.injEq] at this
        exact ⟨this.1.symm, this.2.symm⟩
      rw [if_neg hl] at g5
      cases hso : w.soBase with
      | none =>
        rw [hso] at g5
        have := congrArg (fun x => (x.1.mem, x.1.q)) g5
        simp only [Prod.mk.injEq] at this
        exact ⟨this.1.symm, this.2.symm⟩
      | some so =>
      rw [hso] at g5
      simp only at g5
      by_cases h0 : so = 0
      · rw [if_pos h0] at g5
        have := congrArg (fun x => (x.1.mem, x.1.q)) g5
        simp only [Prod.mk.injEq] at this
        exact ⟨this.1.symm, this.2.symm⟩
      rw [if_neg h0] at g5
      exfalso
      have h2 := congrArg Prod.snd g5
      simp only at h2
      rcases applyRefs_error (w := w) (tb := w.libBase (getBasename m.lib)) (ti := w.tlsIdx (getBasename m.lib)) (so := so) m.refs s3 with hz | hz <;>
        rw [hz] at h2 <;> rcases ha with rfl | rfl <;> simp [ENOADDRESS, EUNKNOWN, ENONEWFUNC] at h2
    unfold settle
    simp only
    rw [key.1, key.2]

/-- The symbol [9] of the reference is missing: 0x1000 and 0x2000 are replaced all the same. -/
example : ∃ s', serve demoT 10 (State.init demoMem) (.apply lostWorld (.ok lostPatch)) = some (s', ENONEWFUNC) ∧
    s'.mem.load 0x2008 4 = Ppc.branchBytes 8 ∧ ∃ first r others s1, lostPatch.refs = first ++ r :: others ∧
      serve demoT 10 (State.init demoMem) (.apply lostWorld (.ok { lostPatch with refs := first })) = some (s1, 0) ∧ s'.mem = s1.mem :=
  ⟨_, rfl, by decide +kernel, C165_refused_keeps_functions demoT 10 _ ⟨rfl, rfl, Nat.le_refl _⟩ rfl lostWorld lostPatch rfl _ rfl⟩

/-- The address of the livepatch cannot be found out. -/
example : ∃ s', serve demoT 10 (State.init demoMem) (.apply { lostWorld with soBase := none } (.ok lostPatch)) = some (s', EUNKNOWN) ∧
    s'.mem.load 0x2008 4 = Ppc.branchBytes 8 ∧ ∃ s1, serve demoT 10 (State.init demoMem)
      (.apply (found { lostWorld with soBase := none }) (.ok { lostPatch with refs := [] })) = some (s1, 0) ∧ s'.mem = s1.mem :=
  ⟨_, rfl, by decide +kernel, C165_refused_keeps_all demoT 10 _ ⟨rfl, rfl, Nat.le_refl _⟩ rfl { lostWorld with soBase := none } lostPatch rfl _ _ (.inr rfl) rfl⟩

end Verif.Power
