import Verif.Container.Lemmas

/-! C166 (the code of a container), C167 (refused containers), C168 (containers stay). -/

namespace Verif.Container

open Verif.Runtime Verif.Runtime.Spec Spec
open Verif.X86.Spec (callDest body)

theorem resolve_ne {w : World} {lib : Str} {us : List UnitM} {l : List (Nat × Nat)} (h : resolveUnits w lib us = some l) :
    ∀ u ∈ us, w.newSym u.newName ≠ 0 := by
  induction us generalizing l with
  | nil => simp
  | cons u us ih =>
    simp only [resolveUnits] at h
    split at h
    · simp at h
    split at h
    · simp at h
    rename_i h1 h2
    cases hr : resolveUnits w lib us with
    | none => simp [hr] at h
    | some r =>
      intro v hv
      rcases List.mem_cons.1 hv with rfl | hv
      · exact h2
      · exact ih hr v hv

theorem answer_new {fuel : Nat} {s : State} {w : World} {m : Meta} (ht : m.type = 1) (hi : Idle s) {s' : State}
    (hs : serve fuel s (.apply w (.ok m)) = some (s', 0)) : ∀ u ∈ m.units, w.newSym u.newName ≠ 0 := by
  simp only [serve, Option.some.injEq, Prod.mk.injEq] at hs
  obtain ⟨-, hx⟩ := hs
  unfold applyPatch at hx
  rw [gate_clean hi] at hx
  by_cases he : s.err ≠ ENONE
  · rw [if_pos he] at hx; exact absurd hx he
  rw [if_neg he] at hx
  by_cases hb : w.busy = true
  · rw [if_pos hb] at hx; exact absurd (show EAGAIN = 0 from hx) (by decide)
  rw [if_neg hb] at hx
  simp only at hx
  unfold loadPatch at hx
  simp only [ht] at hx
  rw [if_neg (show ¬ (1 : Nat) = 2 by decide)] at hx
  by_cases hsn : sanity w m s ≠ 0
  · rw [if_pos hsn] at hx; exact absurd hx hsn
  rw [if_neg hsn] at hx
  split at hx
  · exact absurd (show EDLOPEN = 0 from hx) (by decide)
  rw [if_pos trivial] at hx
  cases hu : stateUpdate w m s with
  | none => simp only [hu] at hx; exact absurd (show ESTATE = 0 from hx) (by decide)
  | some s1 =>
    unfold stateUpdate at hu
    cases hr : resolveUnits w m.lib m.units with
    | none => simp [hr] at hu
    | some r => exact resolve_ne hr

/-- What is known of a reachable process. -/
structure Known (m₀ : Mem) (F slot : Nat → Prop) (p : Proc) (ps : List Patch) : Prop where
  inv : Inv m₀ F slot p.rt ps
  held : ∀ P ∈ ps, ∀ r ∈ P.repl, ∃ o, Kept o p.objs ∧ ∃ n v, o.file.syms n = some v ∧ r.2 = (o.base + v) % 2 ^ 64

theorem known_step {m₀ F slot fuel} (hI : Image m₀ F slot) {p p' : Proc} {a : Act} {r : Option Nat} {ps : List Patch} (hk : Known m₀ F slot p ps)
    (hfit : ∀ q, request p a = some q → Fits m₀ F slot q) (h : step fuel p a = some (p', r)) :
    Known m₀ F slot p' (match request p a, r with | some q, some a => track ps q a | _, _ => ps) := by
  have hkept : ∀ P ∈ ps, ∀ r ∈ P.repl, ∃ o, Kept o p'.objs ∧ ∃ n v, o.file.syms n = some v ∧ r.2 = (o.base + v) % 2 ^ 64 := by
    intro P hP r hr
    obtain ⟨o, h1, h2⟩ := hk.held P hP r hr
    exact ⟨o, step_kept h h1, h2⟩
  cases a with
  | apply d w m =>
    simp only [step, Option.map_eq_some_iff, Prod.mk.injEq] at h
    obtain ⟨⟨s', a⟩, hs, rfl, rfl⟩ := h
    refine ⟨serve_inv hI (hfit _ rfl) hk.inv hs, ?_⟩
    simp only [request]
    intro P hP r hr
    cases m with
    | error e => exact hkept P hP r hr
    | ok m =>
      cases a with
      | succ n => exact hkept P hP r hr
      | zero =>
        simp only [track] at hP
        by_cases ht : m.type = 1
        · rw [if_pos ht] at hP
          rcases List.mem_cons.1 hP with rfl | hP
          · simp only [patchOf, List.mem_map] at hr
            obtain ⟨u, hu, rfl⟩ := hr
            have hne := answer_new ht hk.inv.clean hs u hu
            cases ho : (opened p d w (.ok m)).1 with
            | none => simp [worldOf, ho] at hne
            | some o =>
              have hh := opened_held ho
              refine ⟨o, ⟨o, hh.1, rfl, rfl, hh.2⟩, u.newName, ?_⟩
              simp only [worldOf, ho, Option.map_some, Option.getD_some, Obj.sym] at hne ⊢
              cases hv : o.file.syms u.newName with
              | none => simp [hv] at hne
              | some v => exact ⟨v, rfl, rfl⟩
          · exact hkept P hP r hr
        · rw [if_neg ht] at hP
          split at hP
          · exact hkept P (List.mem_filter.1 hP).1 r hr
          · exact hkept P hP r hr
  | other q =>
    have sub : ∀ a, ∀ P ∈ track ps q a, (∀ w m, q ≠ .apply w m) → P ∈ ps := by
      intro a P hP hn
      cases q with
      | apply w m => exact absurd rfl (hn w m)
      | revertAll w lib =>
        cases a with
        | zero => exact (List.mem_filter.1 hP).1
        | succ n => exact hP
      | check | toggle => exact hP
    cases q with
    | apply => simp [step] at h
    | revertAll | check | toggle =>
      simp only [step, Option.map_eq_some_iff, Prod.mk.injEq] at h
      obtain ⟨⟨s', a⟩, hs, rfl, rfl⟩ := h
      exact ⟨serve_inv hI (hfit _ rfl) hk.inv hs, fun P hP => hkept P (sub a P hP (by intros; simp))⟩
  | program keep new =>
    have h' := h
    simp only [step, Option.some.injEq, Prod.mk.injEq] at h
    obtain ⟨rfl, rfl⟩ := h
    exact ⟨hk.inv, hkept⟩

theorem known_reach {m₀ F slot fuel} (hI : Image m₀ F slot) {p : Proc} (h : Reach m₀ F slot fuel p) : ∃ ps, Known m₀ F slot p ps := by
  induction h with
  | start objs => exact ⟨[], init_inv hI, by simp⟩
  | next _ h1 h2 ih =>
    obtain ⟨ps, hk⟩ := ih
    exact ⟨_, known_step hI hk h1 h2⟩

/-- After a successful apply calls go to what `dlsym` found in the object that `dlopen` returned. -/
theorem calls_after {m₀ F slot fuel} (hI : Image m₀ F slot) {p p' : Proc} (h : Reach m₀ F slot fuel p) {d : Disk} {w : World} {m : Meta}
    (ht : m.type = 1) (hfit : Fits m₀ F slot (.apply (worldOf (opened p d w (.ok m)).1 w) (.ok m)))
    (hs : step fuel p (.apply d w (.ok m)) = some (p', some 0)) (hh : healthy p'.rt.err) :
    ∃ o, (dlopen d m.soName p.objs).1 = some o ∧ p'.objs = (dlopen d m.soName p.objs).2 ∧ ∀ u f, F f → Replaces w m u f →
      ∃ v, o.file.syms u.newName = some v ∧ callDest p'.rt.mem f = some ((o.base + v) % 2 ^ 64) := by
  obtain ⟨ps, hk⟩ := known_reach hI h
  have hk' := known_step hI hk (fun q hq => by simp only [request, Option.some.injEq] at hq; rw [← hq]; exact hfit) hs
  simp only [request, track, ht, if_true] at hk'
  simp only [step, Option.map_eq_some_iff, Prod.mk.injEq, Option.some.injEq] at hs
  obtain ⟨⟨s', a⟩, hs, rfl, rfl⟩ := hs
  obtain ⟨ho, hsome⟩ := opens_of_answer ht hs rfl hk.inv.clean
  have hop : opened p d w (.ok m) = dlopen d m.soName p.objs := by unfold opened; simp only; rw [if_pos ho]
  rw [hop] at hsome hs hk'
  obtain ⟨o, hoo⟩ := Option.isSome_iff_exists.1 hsome
  refine ⟨o, hoo, by rw [hop], fun u f hf hr => ?_⟩
  have hu : u ∈ m.units := (List.mem_filter.1 (List.mem_of_getLast? hr)).1
  have hne := answer_new ht hk.inv.clean hs u hu
  rw [hoo] at hne
  simp only [worldOf, Option.map_some, Option.getD_some, Obj.sym] at hne
  have hc := (hk'.inv.good hh).calls hI.range f hf
  cases hv : o.file.syms u.newName with
  | none => simp [hv] at hne
  | some v =>
    refine ⟨v, rfl, ?_⟩
    refine hc.trans ?_
    unfold Replaces at hr
    have : ((patchOf (worldOf (dlopen d m.soName p.objs).1 w) m).repl.filter (fun u => u.1 = f)).getLast? = some (f, (o.base + v) % 2 ^ 64) := by
      simp only [patchOf, List.filter_map, Function.comp_def]
      rw [List.getLast?_map]
      show Option.map _ (List.getLast? (m.units.filter fun v => w.oldSym (getBasename m.lib) v.oldName v.oldAddr = f)) = _
      rw [hr]
      have hold := (List.mem_filter.1 (List.mem_of_getLast? hr)).2
      simp only [decide_eq_true_eq] at hold
      simp only [Option.map_some, Option.some.injEq, Prod.mk.injEq]
      refine ⟨hold, ?_⟩
      rw [hoo]
      simp [worldOf, Obj.sym, hv]
    simp only [replacement, this, Option.getD_some]

/-! ### C166: the code of a container -/

/-- **C166**, the part that is true: if no object of the container's name, and none of its file, is loaded in the process,
then after a successful apply calls go to the functions that the file holds at the time of the request.  Missing: containers
that are loaded already, see `C166_earlier_code`. -/
theorem C166_current_code_partial {m₀ : Mem} {F slot : Nat → Prop} {fuel : Nat} (hI : Image m₀ F slot) {p p' : Proc}
    (h : Reach m₀ F slot fuel p) {d : Disk} {w : World} {m : Meta} (ht : m.type = 1)
    (hfit : Fits m₀ F slot (.apply (worldOf (opened p d w (.ok m)).1 w) (.ok m))) (hfresh : Fresh p d m.soName)
    (hs : step fuel p (.apply d w (.ok m)) = some (p', some 0)) (hh : healthy p'.rt.err) :
    ∃ file, d.file m.soName = some file ∧ ∀ u f, F f → Replaces w m u f →
      ∃ v, file.syms u.newName = some v ∧ callDest p'.rt.mem f = some ((d.base + v) % 2 ^ 64) := by
  obtain ⟨o, h1, -, h2⟩ := calls_after hI h ht hfit hs hh
  unfold dlopen at h1
  rw [take_none_of (fun y hy => by simpa using (hfresh y hy).1)] at h1
  simp only at h1
  cases hf : d.file m.soName with
  | none => simp [hf] at h1
  | some file =>
    simp only [hf] at h1
    rw [take_none_of (fun y hy => by simpa using (hfresh y hy).2 file hf)] at h1
    simp only at h1
    by_cases hl : file.loads = true
    · rw [if_pos hl] at h1
      simp only [Option.some.injEq] at h1
      subst h1
      exact ⟨file, rfl, h2⟩
    · rw [if_neg hl] at h1; simp at h1

/-- A fresh container is the first of its name once it is opened. -/
theorem first_of_fresh {p : Proc} {d : Disk} {path : Str} (hfresh : Fresh p d path) {file : File} (hf : d.file path = some file)
    (hl : file.loads = true) : First path ⟨[path], file, d.base, true⟩ (dlopen d path p.objs).2 := by
  unfold dlopen
  rw [take_none_of (fun y hy => by simpa using (hfresh y hy).1)]
  simp only [hf]
  rw [take_none_of (fun y hy => by simpa using (hfresh y hy).2 file hf)]
  simp only [hl, if_true]
  exact ⟨p.objs, _, [], rfl, fun y hy => (hfresh y hy).1, by simp, rfl, rfl, rfl⟩

/-- Negation of **C166**: once a container has been opened in a process by an apply request, whatever the answer was and
whatever happened since (the patch may have been reverted, or never been applied), every later container at the same path
is applied with the code of the first: calls go to the functions of the file as it was then. -/
theorem C166_earlier_code {m₀ : Mem} {F slot : Nat → Prop} {fuel : Nat} (hI : Image m₀ F slot) {p p1 p2 p' : Proc}
    {d1 : Disk} {w1 : World} {m1 : Meta} {a1 : Option Nat} {file1 : File} (hfresh : Fresh p d1 m1.soName) (hf : d1.file m1.soName = some file1)
    (hl : file1.loads = true) (ho : opens p.rt w1 m1 = true) (hs1 : step fuel p (.apply d1 w1 (.ok m1)) = some (p1, a1))
    (as : List Act) (hr : run fuel p1 as = some p2)
    (h2 : Reach m₀ F slot fuel p2) {d : Disk} {w : World} {m : Meta} (ht : m.type = 1) (hpath : m.soName = m1.soName)
    (hfit : Fits m₀ F slot (.apply (worldOf (opened p2 d w (.ok m)).1 w) (.ok m)))
    (hs : step fuel p2 (.apply d w (.ok m)) = some (p', some 0)) (hh : healthy p'.rt.err) (u : UnitM) (f : Nat) (hF : F f) (hu : Replaces w m u f) :
    ∃ v, file1.syms u.newName = some v ∧ callDest p'.rt.mem f = some ((d1.base + v) % 2 ^ 64) := by
  have h1 : First m1.soName ⟨[m1.soName], file1, d1.base, true⟩ p1.objs := by
    simp only [step, Option.map_eq_some_iff, Prod.mk.injEq] at hs1
    obtain ⟨x, -, rfl, -⟩ := hs1
    simp only [opened, ho, if_true]
    exact first_of_fresh hfresh hf hl
  have h3 := run_first hr h1
  obtain ⟨o, g1, -, g2⟩ := calls_after hI h2 ht hfit hs hh
  obtain ⟨-, x, e1, e2, e3⟩ := dlopen_first_same (d := d) h3
  rw [hpath, e1] at g1
  obtain ⟨v, hv, hc⟩ := g2 u f hF hu
  simp only [Option.some.injEq] at g1
  subst g1
  rw [e3] at hv
  rw [e2] at hc
  exact ⟨v, hv, hc⟩

/-! ### C167: refused containers -/

theorem dlopen_none {d : Disk} {path : Str} {l : List Obj} (h : (dlopen d path l).1.isSome = false) : (dlopen d path l).2 = l := by
  unfold dlopen at h ⊢
  split at h
  · simp at h
  · split at h
    · rfl
    · split at h
      · simp at h
      · split at h
        · simp at h
        · rename_i hl; simp only [hl]; rfl

theorem loadPatch_answer {w : World} {m : Meta} {s : State} (ht : m.type ≠ 2) (hs : sanity w m s = 0) (hd : w.dlopenOk = true) :
    (loadPatch w m s).2 = 0 ∨ (loadPatch w m s).2 = ESTATE ∨ (loadPatch w m s).2 = ENOPATCHABLE ∨ (loadPatch w m s).2 = ENOADDRESS ∨
      (loadPatch w m s).2 = EUNKNOWN ∨ (loadPatch w m s).2 = ENONEWFUNC ∨ (loadPatch w m s).2 = ENOMETA := by
  unfold loadPatch
  rw [if_neg ht, hs]
  simp only [ne_eq, not_true_eq_false, if_false, hd, Bool.not_true, Bool.false_eq_true, and_false, if_neg ht]
  by_cases h1 : m.type = 1
  · rw [if_pos h1]
    cases hu : stateUpdate w m s with
    | none => simp
    | some s0 =>
      simp only
      have hres : ∃ res, resolveUnits w m.lib m.units = some res := by
        unfold stateUpdate at hu
        cases hr : resolveUnits w m.lib m.units with
        | none => simp [hr] at hu
        | some r => exact ⟨r, rfl⟩
      have hall : (applyAllUnits w m s0).2 = 0 ∨ (applyAllUnits w m s0).2 = ENOPATCHABLE ∨ (applyAllUnits w m s0).2 = ENOADDRESS ∨
          (applyAllUnits w m s0).2 = EUNKNOWN ∨ (applyAllUnits w m s0).2 = ENONEWFUNC := by
        have hu2 := applyUnits_error (id := m.id) m.units { s0 with univ := s0.univ + 1 } hres
        unfold applyAllUnits
        generalize applyUnits w m.lib m.id m.units { s0 with univ := s0.univ + 1 } = q at hu2 ⊢
        obtain ⟨s3, e3⟩ := q
        simp only at hu2 ⊢
        by_cases he3 : e3 ≠ 0
        · rw [if_pos he3]; rcases hu2 with h | h
          · exact absurd h he3
          · exact .inr (.inl h)
        rw [if_neg he3]
        split
        · simp
        cases w.soBase with
        | none => simp
        | some so =>
          simp only
          split
          · simp
          · rcases applyRefs_error (w := w) (tb := w.libBase (getBasename m.lib)) (ti := w.tlsIdx (getBasename m.lib))
              (so := so) m.refs s3 with h0 | h0 <;> simp [h0]
      generalize applyAllUnits w m s0 = q at hall ⊢
      obtain ⟨s4, e4⟩ := q
      simp only at hall ⊢
      split
      · rcases hall with h | h | h | h | h <;> simp [h]
      · simp
  · rw [if_neg h1]
    split <;> simp

/-- **C167**, the part that is true: an apply that is refused because livepatching is off, the process is busy, the metadata
cannot be read, the build id is another, a patch it depends on is missing, it is applied already, or the container cannot
be loaded, loads nothing.  Missing: the other refusals, see `C167_refused_loads`. -/
theorem C167_refused_loads_nothing_partial {fuel : Nat} {p p' : Proc} (hi : Idle p.rt) {d : Disk} {w : World} {m : Except Err Meta} {a : Nat}
    (hs : step fuel p (.apply d w m) = some (p', some a))
    (ha : p.rt.err ≠ ENONE ∨ w.busy = true ∨ (∃ e, m = .error e) ∨ a = EBUILDID ∨ a = EDEPEND ∨ a = EAPPLIED ∨ a = EDLOPEN) : p'.objs = p.objs := by
  simp only [step, Option.map_eq_some_iff, Prod.mk.injEq, Option.some.injEq] at hs
  obtain ⟨⟨s', a'⟩, hs, rfl, rfl⟩ := hs
  cases m with
  | error e => rfl
  | ok m =>
  simp only
  unfold opened
  simp only
  by_cases ho : opens p.rt w m = true
  · rw [if_pos ho]
    cases hd : (dlopen d m.soName p.objs).1.isSome with
    | false => exact dlopen_none hd
    | true =>
    exfalso
    have ho' := ho
    unfold opens at ho'
    rw [gate_clean hi] at ho'
    by_cases he : p.rt.err ≠ ENONE
    · rw [if_pos he] at ho'; simp at ho'
    rw [if_neg he] at ho'
    by_cases hb : w.busy = true
    · rw [if_pos hb] at ho'; simp at ho'
    rw [if_neg hb] at ho'
    simp only [Bool.and_eq_true, decide_eq_true_eq] at ho'
    have ha' : a' = EBUILDID ∨ a' = EDEPEND ∨ a' = EAPPLIED ∨ a' = EDLOPEN := by
      rcases ha with h | h | ⟨e, h⟩ | h
      · exact absurd h he
      · exact absurd h hb
      · cases h
      · exact h
    simp only [serve, Option.some.injEq, Prod.mk.injEq] at hs
    obtain ⟨-, rfl⟩ := hs
    revert ha'
    unfold applyPatch
    rw [gate_clean hi, if_neg he, if_neg (show ¬ (worldOf _ w).busy = true from hb)]
    simp only
    have := loadPatch_answer (w := worldOf (opened p d w (.ok m)).1 w) (m := m) (s := p.rt) ho'.1 ho'.2
      (by unfold opened; simp only; rw [if_pos ho]; simpa [worldOf] using hd)
    rcases this with h | h | h | h | h | h | h <;> rw [h] <;> decide
  · rw [if_neg ho]

theorem resolve_missing {w : World} {lib : Str} {us : List UnitM} {u : UnitM} (hu : u ∈ us) (h : w.newSym u.newName = 0) :
    resolveUnits w lib us = none := by
  cases hr : resolveUnits w lib us with
  | none => rfl
  | some l => exact absurd h (resolve_ne hr u hu)

/-- Negation of **C167**: a patch that passes the checks, but lacks one of the functions it names in its metadata, is refused
with ESTATE; its container has been loaded, so its constructors have run, and it stays in the process. -/
theorem C167_refused_loads {fuel : Nat} {p : Proc} (hi : Idle p.rt) (he : p.rt.err = ENONE) {d : Disk} {w : World} (hb : w.busy = false)
    (hbi : w.buildIdOk = true) {m : Meta} (ht : m.type = 1) (hdeps : ∀ i ∈ m.deps, ∃ q ∈ p.rt.patches, q.id = i)
    (hnew : ∀ q ∈ p.rt.patches, q.id ≠ m.id) (hfresh : Fresh p d m.soName) {file : File} (hf : d.file m.soName = some file)
    (hl : file.loads = true) {u : UnitM} (hu : u ∈ m.units) (hm : file.syms u.newName = none) :
    step fuel p (.apply d w (.ok m)) = some (⟨p.rt, p.objs ++ [⟨[m.soName], file, d.base, true⟩]⟩, some ESTATE) := by
  have hsan : ∀ w' : World, w'.buildIdOk = true → sanity w' m p.rt = 0 := by
    intro w' hw'
    have h1 : (getApplied p.rt m.id).isSome = false := by
      unfold getApplied
      rw [Option.isSome_eq_false_iff, Option.isNone_iff_eq_none, List.find?_eq_none]
      intro q hq
      simpa using hnew q hq
    have h2 : depsOk p.rt m.deps = true := by
      unfold depsOk
      rw [List.all_eq_true]
      intro i hi'
      obtain ⟨q, hq, rfl⟩ := hdeps i hi'
      exact List.any_eq_true.2 ⟨q, hq, by simp⟩
    simp [sanity, hw', h1, h2]
  have ho : opens p.rt w m = true := by
    unfold opens
    rw [gate_clean hi, if_neg (by simp [he]), if_neg (by simp [hb])]
    simp [ht, hsan w hbi]
  have hop : opened p d w (.ok m) = (some ⟨[m.soName], file, d.base, true⟩, p.objs ++ [⟨[m.soName], file, d.base, true⟩]) := by
    unfold opened dlopen
    simp only
    rw [if_pos ho, take_none_of (fun y hy => by simpa using (hfresh y hy).1)]
    simp only [hf]
    rw [take_none_of (fun y hy => by simpa using (hfresh y hy).2 file hf)]
    simp only [hl, if_true]
  have hres := resolve_missing (w := worldOf (some ⟨[m.soName], file, d.base, true⟩) w) (lib := m.lib) hu (by simp [worldOf, Obj.sym, hm])
  have hload : loadPatch (worldOf (some ⟨[m.soName], file, d.base, true⟩) w) m p.rt = (p.rt, ESTATE) := by
    unfold loadPatch
    simp only [ht, hsan _ (show (worldOf (some ⟨[m.soName], file, d.base, true⟩) w).buildIdOk = true from hbi)]
    simp only [stateUpdate, hres]
    rfl
  simp only [step, hop, serve]
  unfold applyPatch
  rw [gate_clean hi, if_neg (by simp [he]), if_neg (show ¬ (worldOf _ w).busy = true by simp [worldOf, hb])]
  simp only [hload, settle_clean hi, Option.map_some]

/-! ### C168: containers stay -/

theorem replacement_mem {ps : List Patch} {f a : Nat} (h : replacement ps f = some a) : ∃ P ∈ ps, ∃ r ∈ P.repl, r.2 = a := by
  induction ps with
  | nil => simp [replacement] at h
  | cons P ps ih =>
    unfold replacement at h
    split at h
    · rename_i u hu
      simp only [Option.some.injEq] at h
      exact ⟨P, by simp, u, (List.mem_filter.1 (List.mem_of_getLast? hu)).1, h⟩
    · obtain ⟨Q, h1, h2⟩ := ih h
      exact ⟨Q, by simp [h1], h2⟩

/-- **C168** Wherever calls of a function are ever redirected to, the object with that code is loaded, and it stays loaded at
the same address whatever happens afterwards: reverting the patch does not pull the code away from threads that are still
in it. -/
theorem C168_replacements_stay {m₀ : Mem} {F slot : Nat → Prop} {fuel : Nat} (hI : Image m₀ F slot) {p : Proc} (h : Reach m₀ F slot fuel p)
    (hh : healthy p.rt.err) (f a : Nat) (hf : F f) (hc : callDest p.rt.mem f = some a) :
    a = body m₀ f ∨ ∃ n v base file, a = (base + v) % 2 ^ 64 ∧ file.syms n = some v ∧
      ∀ as p', run fuel p as = some p' → ∃ o ∈ p'.objs, o.base = base ∧ o.file = file := by
  obtain ⟨ps, hk⟩ := known_reach hI h
  rw [(hk.inv.good hh).calls hI.range f hf] at hc
  cases hr : replacement ps f with
  | none => left; simpa [hr] using hc.symm
  | some b =>
    right
    rw [hr] at hc
    simp only [Option.getD_some, Option.some.injEq] at hc
    subst hc
    obtain ⟨P, hP, r, hr', rfl⟩ := replacement_mem hr
    obtain ⟨o, ho, n, v, hv, he⟩ := hk.held P hP r hr'
    refine ⟨n, v, o.base, o.file, he, hv, fun as p' hrun => ?_⟩
    obtain ⟨o', h1, h2, h3, -⟩ := run_kept hrun ho
    exact ⟨o', h1, h2, h3⟩

/-- **C168**, the other side: no event, be it a request to revert, ever makes the number of containers that libpulp holds
smaller. -/
theorem C168_never_unloaded {fuel : Nat} {p p' : Proc} {as : List Act} (h : run fuel p as = some p') (o : Obj) (ho : o ∈ p.objs)
    (hp : o.pinned = true) : ∃ o' ∈ p'.objs, o'.base = o.base ∧ o'.file = o.file := by
  obtain ⟨o', h1, h2, h3, -⟩ := run_kept h ⟨o, ho, rfl, rfl, hp⟩
  exact ⟨o', h1, h2, h3⟩

/-! ### Examples -/

/-- The container at first. -/
def oldFile : File := ⟨1, true, fun n => if n = [1] then some 0x10 else none⟩
/-- The container after it has been built again, with the function elsewhere. -/
def newFile : File := ⟨2, true, fun n => if n = [1] then some 0x99 else none⟩

def disk1 : Disk := ⟨fun _ => some oldFile, 0x700000⟩
def disk2 : Disk := ⟨fun _ => some newFile, 0x800000⟩

def demoUp : Meta := demoPatch 1 libA [0x1000] [] []
def demoDown : Meta := demoRevert 1 libA

def prog0 : Proc := ⟨State.init demoMem, [⟨[libA], ⟨77, true, fun _ => none⟩, 0x400000, false⟩]⟩

theorem demo_fit (h : Option Obj) (hs : ∀ o, h = some o → o.base < 2 ^ 63 ∧ 0x10000 < o.base ∧ ∀ n v, o.file.syms n = some v → v < 0x1000)
    (hh : h.isSome = true) : Fits demoMem demoF demoSlot (.apply (worldOf h demoWorld) (.ok demoUp)) := by
  obtain ⟨o, rfl⟩ := Option.isSome_iff_exists.1 hh
  obtain ⟨h1, h2, h3⟩ := hs o rfl
  intro _
  refine ⟨?_, by simp [demoUp, demoPatch]⟩
  intro u hu
  simp only [demoUp, demoPatch, List.map_cons, List.map_nil, List.mem_singleton] at hu
  subst hu
  right
  refine ⟨.inl rfl, ?_⟩
  simp only [worldOf, Option.map_some, Option.getD_some, demoWorld, Obj.sym]
  cases hv : o.file.syms [1] with
  | none => simp [inPad, demo_body]
  | some v =>
    have := h3 _ _ hv
    simp only
    refine ⟨Nat.mod_lt _ (by decide), ?_⟩
    rw [Nat.mod_eq_of_lt (by omega)]
    simp only [inPad, demo_body]
    omega

theorem demo_syms (b : Bool) : ∀ n v, (if b then oldFile else newFile).syms n = some v → v < 0x1000 := by
  intro n v h
  cases b <;> simp only [oldFile, newFile, if_true, Bool.false_eq_true, if_false, Option.ite_none_right_eq_some] at h <;>
    (have := h.2; simp at this; omega)

theorem demo_start : Reach demoMem demoF demoSlot 10 prog0 := .start _ (by simp)

theorem demo_fresh : Fresh prog0 disk1 demoUp.soName := by
  intro o ho
  simp only [prog0, List.mem_singleton] at ho
  subst ho
  refine ⟨by decide, fun f hf => ?_⟩
  simp only [disk1, Option.some.injEq] at hf
  subst hf
  decide

theorem demo_step1 : ∃ p1, step 10 prog0 (.apply disk1 demoWorld (.ok demoUp)) = some (p1, some 0) ∧ p1.rt.err = ENONE ∧
    (∃ p2, step 10 p1 (.apply disk1 demoWorld (.ok demoDown)) = some (p2, some 0) ∧ p2.rt.err = ENONE ∧
      (opened p2 disk2 demoWorld (.ok demoUp)).1.map (fun o => (o.base, o.file)) = some (0x700000, oldFile) ∧
      ∃ p3, step 10 p2 (.apply disk2 demoWorld (.ok demoUp)) = some (p3, some 0) ∧ p3.rt.err = ENONE) :=
  ⟨_, rfl, rfl, _, rfl, rfl, rfl, _, rfl, rfl⟩

theorem demo_fit1 : Fits demoMem demoF demoSlot (.apply (worldOf (opened prog0 disk1 demoWorld (.ok demoUp)).1 demoWorld) (.ok demoUp)) := by
  have : (opened prog0 disk1 demoWorld (.ok demoUp)).1 = some ⟨[[1]], oldFile, 0x700000, true⟩ := rfl
  rw [this]
  refine demo_fit _ (fun o ho => ?_) rfl
  simp only [Option.some.injEq] at ho
  subst ho
  exact ⟨by decide, by decide, demo_syms true⟩

/-- The function is where the file has it. -/
example : ∃ p1, step 10 prog0 (.apply disk1 demoWorld (.ok demoUp)) = some (p1, some 0) ∧ callDest p1.rt.mem 0x1000 = some 0x700010 := by
  obtain ⟨p1, h1, h2, -⟩ := demo_step1
  obtain ⟨file, hf, hall⟩ := C166_current_code_partial demo_image demo_start rfl demo_fit1 demo_fresh h1 (.inl h2)
  obtain ⟨v, hv, hc⟩ := hall ⟨[], [1], 0x1000⟩ 0x1000 (.inl rfl) rfl
  simp only [disk1, Option.some.injEq] at hf
  subst hf
  simp only [oldFile, if_true, Option.some.injEq] at hv
  subst hv
  exact ⟨p1, h1, hc⟩

/-- The container is applied and reverted, then the new one at the same path is applied: it is the old function that is
called. -/
example : ∃ p1 p2 p3, step 10 prog0 (.apply disk1 demoWorld (.ok demoUp)) = some (p1, some 0) ∧
    step 10 p1 (.apply disk1 demoWorld (.ok demoDown)) = some (p2, some 0) ∧
    step 10 p2 (.apply disk2 demoWorld (.ok demoUp)) = some (p3, some 0) ∧ callDest p3.rt.mem 0x1000 = some 0x700010 := by
  obtain ⟨p1, h1, e1, p2, h2, e2, ho, p3, h3, e3⟩ := demo_step1
  have r1 : Reach demoMem demoF demoSlot 10 p1 := .next demo_start
    (fun q hq => by simp only [request, Option.some.injEq] at hq; rw [← hq]; exact demo_fit1) h1
  have r2 : Reach demoMem demoF demoSlot 10 p2 := .next r1
    (fun q hq => by simp only [request, Option.some.injEq] at hq; rw [← hq]; exact fun h => by simp [demoDown, demoRevert] at h) h2
  obtain ⟨v, hv, hc⟩ := C166_earlier_code demo_image (w1 := demoWorld) (m1 := demoUp) demo_fresh rfl rfl rfl h1 [.apply disk1 demoWorld (.ok demoDown)]
    (by simp [run, h2]) r2 (m := demoUp) rfl rfl (by
      refine demo_fit _ (fun o hoo => ?_) ?_
      · rw [hoo] at ho
        simp only [Option.map_some, Option.some.injEq, Prod.mk.injEq] at ho
        rw [ho.1, ho.2]
        exact ⟨by decide, by decide, demo_syms true⟩
      · cases hx : (opened p2 disk2 demoWorld (.ok demoUp)).1 with
        | none => simp [hx] at ho
        | some o => rfl) h3 (.inl e3) ⟨[], [1], 0x1000⟩ 0x1000 (.inl rfl) rfl
  simp only [oldFile, if_true, Option.some.injEq] at hv
  subst hv
  exact ⟨p1, p2, p3, h1, h2, h3, hc⟩

/-- The code stays loaded after the patch has been reverted and the program has closed all it can. -/
example : ∃ p1 p', run 10 prog0 [.apply disk1 demoWorld (.ok demoUp)] = some p1 ∧
    run 10 p1 [.apply disk1 demoWorld (.ok demoDown), .program (fun _ => false) []] = some p' ∧
    ∃ o ∈ p'.objs, o.base = 0x700000 ∧ o.file = oldFile := by
  refine ⟨_, _, rfl, rfl, ?_⟩
  exact C168_never_unloaded (fuel := 10) (as := [.apply disk1 demoWorld (.ok demoDown), .program (fun _ => false) []]) rfl
    ⟨[[1]], oldFile, 0x700000, true⟩ (.tail _ (.head _)) rfl

example : ∃ p1, step 10 prog0 (.apply disk1 demoWorld (.ok demoUp)) = some (p1, some 0) ∧
    ∃ n v base file, 0x700010 = (base + v) % 2 ^ 64 ∧ file.syms n = some v ∧
      ∀ as p', run 10 p1 as = some p' → ∃ o ∈ p'.objs, o.base = base ∧ o.file = file := by
  obtain ⟨p1, h1, e1, -⟩ := demo_step1
  have r1 : Reach demoMem demoF demoSlot 10 p1 := .next demo_start
    (fun q hq => by simp only [request, Option.some.injEq] at hq; rw [← hq]; exact demo_fit1) h1
  obtain ⟨file, hf, hall⟩ := C166_current_code_partial demo_image demo_start rfl demo_fit1 demo_fresh h1 (.inl e1)
  obtain ⟨v, hv, hc⟩ := hall ⟨[], [1], 0x1000⟩ 0x1000 (.inl rfl) rfl
  simp only [disk1, Option.some.injEq] at hf
  subst hf
  simp only [oldFile, if_true, Option.some.injEq] at hv
  subst hv
  rcases C168_replacements_stay demo_image r1 (.inl e1) _ _ (.inl rfl) hc with h | h
  · rw [demo_body] at h; exact absurd h (by decide)
  · exact ⟨p1, h1, h⟩

/-- A process that is busy. -/
example : ∀ p', step 10 prog0 (.apply disk1 { demoWorld with busy := true } (.ok demoUp)) = some (p', some EAGAIN) → p'.objs = prog0.objs :=
  fun _ h => C167_refused_loads_nothing_partial ⟨rfl, rfl, Nat.le_refl _⟩ h (.inr (.inl rfl))

example : (step 10 prog0 (.apply disk1 { demoWorld with buildIdOk := false } (.ok demoUp))).map (fun x => (x.2, x.1.objs.length)) = some (some EBUILDID, 1) := by
  decide +kernel

/-- A patch that names a function the container lacks. -/
example : step 10 prog0 (.apply ⟨fun _ => some ⟨1, true, fun _ => none⟩, 0x700000⟩ demoWorld (.ok demoUp)) =
    some (⟨prog0.rt, prog0.objs ++ [⟨[[1]], ⟨1, true, fun _ => none⟩, 0x700000, true⟩]⟩, some ESTATE) :=
  C167_refused_loads (d := ⟨fun _ => some ⟨1, true, fun _ => none⟩, 0x700000⟩) ⟨rfl, rfl, Nat.le_refl _⟩ rfl rfl rfl rfl (by simp [demoUp, demoPatch])
    (by simp [prog0, State.init]) (by
      intro o ho
      simp only [prog0, List.mem_singleton] at ho
      subst ho
      refine ⟨by decide, fun f hf => ?_⟩
      simp only [Option.some.injEq] at hf
      subst hf
      decide) rfl rfl (u := ⟨[], [1], 0x1000⟩) (by simp [demoUp, demoPatch]) rfl

end Verif.Container
