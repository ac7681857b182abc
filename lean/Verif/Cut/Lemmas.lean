import Verif.Cut.Spec
import Verif.Runtime.Invariant

/-! Helper facts for requests that are cut short. -/

namespace Verif.Cut

open Verif.Runtime
open Spec

theorem steps_add (v buf) (a b : Nat) (c : Proc × Pc) : steps v buf (a + b) c = steps v buf b (steps v buf a c) := by
  induction a generalizing c with
  | zero => rw [Nat.zero_add]; rfl
  | succ a ih => rw [Nat.add_right_comm]; exact ih _

theorem steps_succ (v buf) (n : Nat) (c : Proc × Pc) : steps v buf (n + 1) c = step v buf (steps v buf n c) := by
  rw [steps_add]; rfl

theorem steps_ret (v buf) (n : Nat) (p e) : steps v buf n (p, .ret e) = (p, .ret e) := by
  induction n with
  | zero => rfl
  | succ n ih => exact ih

theorem steps_undefined (v buf) (n : Nat) (p) : steps v buf n (p, .undefined) = (p, .undefined) := by
  induction n with
  | zero => rfl
  | succ n ih => exact ih

def Reaches (v : Env) (buf : Except Err Meta) (c c' : Proc × Pc) : Prop := ∃ n, steps v buf n c = c'

theorem Reaches.refl {v buf c} : Reaches v buf c c := ⟨0, rfl⟩

theorem Reaches.one {v buf c} : Reaches v buf c (step v buf c) := ⟨1, rfl⟩

theorem Reaches.trans {v buf a b c} (h : Reaches v buf a b) (h' : Reaches v buf b c) : Reaches v buf a c := by
  obtain ⟨n, rfl⟩ := h
  obtain ⟨m, rfl⟩ := h'
  exact ⟨n + m, steps_add v buf n m a⟩

theorem Reaches.head {v buf a c} (h : Reaches v buf (step v buf a) c) : Reaches v buf a c := Reaches.one.trans h

/-- The end is the same whenever it is looked at. -/
theorem ret_unique {v buf c q e n q' e' n'} (h : steps v buf n c = (q, .ret e)) (h' : steps v buf n' c = (q', .ret e')) :
    q = q' ∧ e = e' := by
  rcases Nat.le_total n n' with hl | hl
  · obtain ⟨k, rfl⟩ := Nat.le.dest hl
    rw [steps_add, h, steps_ret] at h'
    simp only [Prod.mk.injEq, Pc.ret.injEq] at h'
    exact h'
  · obtain ⟨k, rfl⟩ := Nat.le.dest hl
    rw [steps_add, h', steps_ret] at h
    simp only [Prod.mk.injEq, Pc.ret.injEq] at h
    exact ⟨h.1.symm, h.2.symm⟩

theorem undefined_no_ret {v buf c p q e n n'} (h : steps v buf n c = (p, .undefined))
    (h' : steps v buf n' c = (q, .ret e)) : False := by
  rcases Nat.le_total n n' with hl | hl
  · obtain ⟨k, rfl⟩ := Nat.le.dest hl
    rw [steps_add, h, steps_undefined] at h'
    simp at h'
  · obtain ⟨k, rfl⟩ := Nat.le.dest hl
    rw [steps_add, h', steps_ret] at h
    simp at h

/-- What a request does is where its run ends. -/
theorem whole_iff {v buf p q e} (h : Reaches v buf (p, .gate) (q, .ret e)) (a r) :
    Happens p (.whole v buf) a r ↔ a = some e ∧ r = { q with st := settle q.st } := by
  obtain ⟨n, hn⟩ := h
  constructor
  · intro h
    cases h with
    | whole _ _ n' q' e' h' =>
      obtain ⟨rfl, rfl⟩ := ret_unique hn h'
      exact ⟨rfl, rfl⟩
  · rintro ⟨rfl, rfl⟩
    exact .whole p v buf n q e hn

theorem whole_none {v buf p q} (h : Reaches v buf (p, .gate) (q, .undefined)) (a r) :
    ¬ Happens p (.whole v buf) a r := by
  obtain ⟨n, hn⟩ := h
  intro h
  cases h with
  | whole _ _ n' q' e' h' => exact undefined_no_ret hn h'

/-! ### the gate -/

theorem gate_calm {p : Proc} (hi : Runtime.Spec.Idle p.st) (he : p.st.err = ENONE) (hs : p.stuck = false) {v : Env} (buf)
    (hv : v.w.busy = false) :
    step v buf (p, .gate) = (p, if p.ref.isSome then .dispatch else .alloc) := by
  have : Runtime.gate (v.entry p) p.st = (p.st, none) := by
    rw [gate_clean hi, if_neg (by rw [he]; decide), if_neg (by simp [Env.entry, hv, hs])]
  simp only [step, this]

theorem gate_busy {p : Proc} (hi : Runtime.Spec.Idle p.st) (he : p.st.err = ENONE) {v : Env} (buf)
    (hv : (v.w.busy || p.stuck) = true) : step v buf (p, .gate) = (p, .ret EAGAIN) := by
  have : Runtime.gate (v.entry p) p.st = (p.st, some EAGAIN) := by
    rw [gate_clean hi, if_neg (by rw [he]; decide), if_pos (by simpa [Env.entry] using hv)]
  simp only [step, this]

theorem gate_error {p : Proc} (he : p.st.err ≠ ENONE) {v : Env} (buf) :
    step v buf (p, .gate) = (p, .ret p.st.err) := by
  have : Runtime.gate (v.entry p) p.st = (p.st, some p.st.err) := by
    unfold Runtime.gate
    rw [if_pos he]
  simp only [step, this]

/-! ### reading -/

/-- What is in memory after reading all. -/
def full (m : Meta) (opened : Bool) : Md :=
  ⟨if m.type = 2 then { m with units := [], deps := [], refs := [] } else m, true, opened, false⟩

theorem fill_units (us : List UnitM) (md : Md) :
    (us.map Item.unit).foldl fill md = { md with mt := { md.mt with units := md.mt.units ++ us } } := by
  induction us generalizing md with
  | nil => simp
  | cons u us ih => simp [ih, fill]

theorem fill_deps (us : List Id) (md : Md) :
    (us.map Item.dep).foldl fill md = { md with mt := { md.mt with deps := md.mt.deps ++ us } } := by
  induction us generalizing md with
  | nil => simp
  | cons u us ih => simp [ih, fill]

theorem fill_refs (us : List RefM) (md : Md) :
    (us.map Item.ref).foldl fill md = { md with mt := { md.mt with refs := md.mt.refs ++ us } } := by
  induction us generalizing md with
  | nil => simp
  | cons u us ih => simp [ih, fill]

theorem fill_items (m : Meta) : (items m).foldl fill .zero = full m false := by
  unfold items full
  by_cases h : m.type = 2
  · rw [if_pos h, if_pos h]
    simp [fill, Md.zero]
  · rw [if_neg h, if_neg h]
    simp only [List.foldl_append, fill_units, fill_deps, fill_refs, List.foldl_cons, List.foldl_nil]
    simp [fill, Md.zero]

/-! ### the parts of the routine -/

theorem unload_reaches (v buf) (p : Proc) (e) : Reaches v buf (p, .unload e) ({ p with ref := none }, .ret e) :=
  ⟨2, rfl⟩

theorem read_reaches (v buf) (p : Proc) (md : Md) (is : List Item) (h : p.ref = some md) :
    Reaches v buf (p, .read is) ({ p with ref := some (is.foldl fill md) }, .read []) := by
  induction is generalizing p md with
  | nil =>
    have : ({ p with ref := some md } : Proc) = p := by rw [← h]
    rw [List.foldl_nil, this]; exact .refl
  | cons i is ih =>
    refine .head ?_
    have : step v buf (p, .read (i :: is)) = ({ p with ref := some (fill md i) }, .read is) := by simp only [step, h]
    rw [this]
    exact ih _ _ rfl

theorem record_reaches {v : Env} {buf} {p : Proc} {md : Md} (h : p.ref = some md) (us : List UnitM) (done) :
    Reaches v buf (p, .record us done) (match resolveUnits (v.view md) md.mt.lib us with
      | none => (p, .unload ESTATE)
      | some l => (p, .record [] (done ++ l))) := by
  induction us generalizing done with
  | nil => simp only [resolveUnits, List.append_nil]; exact .refl
  | cons u us ih =>
    refine .head ?_
    simp only [step, h, resolveUnits]
    have hv : (v.view md).oldSym = v.w.oldSym := rfl
    rw [hv]
    by_cases h1 : v.w.oldSym (getBasename md.mt.lib) u.oldName u.oldAddr = 0
    · rw [if_pos h1, if_pos h1]; exact .refl
    · rw [if_neg h1, if_neg h1]
      by_cases h2 : (v.view md).newSym u.newName = 0
      · rw [if_pos h2, if_pos h2]; exact .refl
      · rw [if_neg h2, if_neg h2]
        refine (ih _).trans ?_
        cases resolveUnits (v.view md) md.mt.lib us with
        | none => exact .refl
        | some l => simp only [Option.map_some, List.append_assoc, List.cons_append, List.nil_append]; exact .refl

theorem detour_reaches {v : Env} {buf} {p : Proc} {md : Md} (h : p.ref = some md) (us : List UnitM) :
    Reaches v buf (p, .detour us) (match applyUnits (v.view md) md.mt.lib md.mt.id us p.st with
      | (s, e) => if e ≠ 0 then fatal { p with st := s } e else ({ p with st := s }, .detour [])) := by
  induction us generalizing p with
  | nil => simp only [applyUnits, ne_eq, not_true_eq_false, if_false]; exact .refl
  | cons u us ih =>
    obtain ⟨st, ref, stuck⟩ := p
    simp only at h
    subst h
    refine .head ?_
    simp only [step, applyUnits]
    have hv : (v.view md).oldSym = v.w.oldSym := rfl
    rw [hv]
    by_cases h1 : v.w.oldSym (getBasename md.mt.lib) u.oldName u.oldAddr = 0
    · rw [if_pos h1, if_pos h1]
      simp only [show ENOOLDFUNC ≠ 0 by decide, ne_eq, not_false_eq_true, if_true]
      exact .refl
    · rw [if_neg h1, if_neg h1]
      by_cases h2 : (v.view md).newSym u.newName = 0
      · rw [if_pos h2, if_pos h2]
        simp only [show ENONEWFUNC ≠ 0 by decide, ne_eq, not_false_eq_true, if_true]
        exact .refl
      · rw [if_neg h2, if_neg h2]
        refine .head ?_
        simp only [step]
        generalize patchAddr _ _ _ true = r
        obtain ⟨s, e⟩ := r
        simp only
        by_cases he : e > 0
        · rw [if_pos he, if_pos he]
          simp only [show e ≠ 0 from Nat.pos_iff_ne_zero.mp he, ne_eq, not_false_eq_true, if_true]
          exact .refl
        · rw [if_neg he, if_neg he]
          exact ih (p := ⟨s, some md, stuck⟩) rfl

theorem refs_reaches {v : Env} {buf} {p : Proc} {md : Md} (h : p.ref = some md) (so : Nat) (rs : List RefM) :
    Reaches v buf (p, .refs so rs)
      (match applyRefs (v.view md) (v.w.libBase (getBasename md.mt.lib)) (v.w.tlsIdx (getBasename md.mt.lib)) so rs p.st with
      | (s, e) => if e ≠ 0 then fatal { p with st := s } e else ({ p with st := s }, .refs so [])) := by
  induction rs generalizing p with
  | nil => simp only [applyRefs, ne_eq, not_true_eq_false, if_false]; exact .refl
  | cons r rs ih =>
    obtain ⟨st, ref, stuck⟩ := p
    simp only at h
    subst h
    refine .head ?_
    simp only [step, applyRefs]
    by_cases h1 : r.patchOff = 0 ∧ (if r.patchOff = 0 then (v.view md).newSym r.refName else (so + r.patchOff) % 2 ^ 64) = 0
    · rw [if_pos h1, if_pos h1]
      simp only [show ENONEWFUNC ≠ 0 by decide, ne_eq, not_false_eq_true, if_true]
      exact .refl
    · rw [if_neg h1, if_neg h1]
      exact ih (p := ⟨_, some md, stuck⟩) rfl

theorem fatal_reaches (v buf) (p : Proc) (e) :
    Reaches v buf (fatal p e) ({ p with st := { p.st with err := EUNKNOWN }, ref := none }, .ret e) :=
  unload_reaches v buf _ e

/-- What `load_patch` does once the metadata are there, lib/ulp.c:487-502. -/
def applyRest (w : World) (m : Meta) (s : State) : State × Err :=
  match stateUpdate w m s with
  | none => (s, ESTATE)
  | some s => match applyAllUnits w m s with
    | (s, e) => if e ≠ 0 then ({ s with err := EUNKNOWN }, e) else (s, 0)

theorem apply_reaches {v : Env} {buf} {p : Proc} {md : Md} (h : p.ref = some md) (ht : md.mt.type = 1)
    (hn : md.named = true) (ho : md.opened = true) (hf : md.freed = false) :
    Reaches v buf (p, .dispatch)
      (⟨(applyRest v.w md.mt p.st).1, none, p.stuck⟩, .ret (applyRest v.w md.mt p.st).2) := by
  have hview : v.view md = v.w := by unfold Env.view; rw [ho]; rfl
  refine .head ?_
  simp only [step, h, hf, ht, hn]
  simp only [Bool.false_eq_true, if_false, if_true]
  refine (record_reaches h _ _).trans ?_
  rw [hview]
  unfold applyRest stateUpdate
  cases hr : resolveUnits v.w md.mt.lib md.mt.units with
  | none => exact unload_reaches _ _ _ _
  | some l =>
    simp only [List.nil_append, Option.map_some]
    refine .head ?_
    simp only [step, h]
    refine .head ?_
    simp only [step]
    refine (detour_reaches (md := md) rfl _).trans ?_
    rw [hview]
    unfold applyAllUnits
    generalize applyUnits v.w md.mt.lib md.mt.id md.mt.units _ = r
    obtain ⟨s1, e1⟩ := r
    simp only
    by_cases he : e1 ≠ 0
    · simp only [if_pos he]
      exact fatal_reaches _ _ _ _
    · simp only [if_neg he]
      refine .head ?_
      simp only [step]
      refine .head ?_
      simp only [step, ho]
      by_cases hb : v.w.libBase (getBasename md.mt.lib) = 0xff
      · simp only [if_pos hb, show ENOADDRESS ≠ 0 by decide, ne_eq, not_false_eq_true, if_true]
        exact fatal_reaches _ _ _ _
      · simp only [if_neg hb, Bool.not_true, Bool.false_eq_true, if_false]
        cases hso : v.w.soBase with
        | none =>
          simp only [show EUNKNOWN ≠ 0 by decide, ne_eq, not_false_eq_true, if_true]
          exact fatal_reaches _ _ _ _
        | some so =>
          simp only
          by_cases hz : so = 0
          · simp only [if_pos hz, show ENOADDRESS ≠ 0 by decide, ne_eq, not_false_eq_true, if_true]
            exact fatal_reaches _ _ _ _
          · simp only [if_neg hz]
            refine (refs_reaches (md := md) rfl _ _).trans ?_
            rw [hview]
            simp only
            generalize applyRefs v.w _ _ so md.mt.refs s1 = r
            obtain ⟨s2, e2⟩ := r
            simp only
            by_cases he : e2 ≠ 0
            · simp only [if_pos he]
              exact fatal_reaches _ _ _ _
            · simp only [if_neg he]
              refine .head ?_
              simp only [step]
              exact unload_reaches _ _ _ _

theorem patchAddr_setRoots (s : State) (X) (a b e) :
    patchAddr { s with roots := X } a b e = ({ (patchAddr s a b e).1 with roots := X }, (patchAddr s a b e).2) := by
  unfold patchAddr
  simp only
  cases X86.patchAddr s.mem a b e <;> rfl

theorem revertRoot_setRoots (id addr) (done ds : List Detour) (s : State) (X) :
    revertRoot id addr done ds { s with roots := X } =
      ({ (revertRoot id addr done ds s).1 with roots := X }, (revertRoot id addr done ds s).2) := by
  induction ds generalizing done s with
  | nil => rfl
  | cons d ds ih =>
    simp only [revertRoot]
    by_cases h : d.id = id
    · simp only [if_pos h]
      cases (done ++ { d with active := false } :: ds).find? (fun d => d.active) with
      | none => simp only [patchAddr_setRoots]; exact ih _ _
      | some a => simp only [patchAddr_setRoots]; exact ih _ _
    · simp only [if_neg h]; exact ih _ _

theorem revertRoots_setRoots (id) (rs : List Root) (s : State) (X) :
    revertRoots id rs { s with roots := X } =
      ({ (revertRoots id rs s).1 with roots := X }, (revertRoots id rs s).2) := by
  induction rs generalizing s with
  | nil => rfl
  | cons r rs ih =>
    simp only [revertRoots]
    rw [revertRoot_setRoots, ih]

theorem undo_reaches {v : Env} {buf} {p : Proc} {md : Md} (h : p.ref = some md) (done rs : List Root)
    (hr : p.st.roots = done ++ rs) :
    Reaches v buf (p, .undo done rs)
      ({ p with st := { (revertRoots md.mt.id rs p.st).1 with roots := done ++ (revertRoots md.mt.id rs p.st).2 } },
        .undo (done ++ (revertRoots md.mt.id rs p.st).2) []) := by
  induction rs generalizing p done with
  | nil =>
    simp only [revertRoots]
    have : ({ p with st := { p.st with roots := done ++ [] } } : Proc) = p := by rw [← hr]
    rw [this, List.append_nil]
    exact .refl
  | cons r rs ih =>
    obtain ⟨st, ref, stuck⟩ := p
    simp only at h hr
    subst h
    refine .head ?_
    simp only [step]
    refine (ih (p := ⟨_, some md, stuck⟩) rfl _ (by simp)).trans ?_
    simp only [revertRoots_setRoots, revertRoots, List.append_assoc, List.cons_append, List.nil_append]
    exact .refl

/-- What `load_patch` does for a revert, lib/ulp.c:503-516. -/
def revertRest (id : Id) (s : State) : State × Err :=
  if canRevert s id ≠ 0 then (s, canRevert s id) else revertPatch s id

theorem revert_reaches {v : Env} {buf} {p : Proc} {md : Md} (h : p.ref = some md) (ht : md.mt.type = 2)
    (hf : md.freed = false) :
    Reaches v buf (p, .dispatch)
      (⟨(revertRest md.mt.id p.st).1, none, p.stuck⟩, .ret (revertRest md.mt.id p.st).2) := by
  obtain ⟨st, ref, stuck⟩ := p
  simp only at h
  subst h
  refine .head ?_
  simp only [step, hf, ht]
  simp only [Bool.false_eq_true, if_false, if_true, show ¬ (2 : Nat) = 1 by decide]
  refine .head ?_
  simp only [step]
  unfold revertRest
  by_cases he : canRevert st md.mt.id ≠ 0
  · simp only [if_pos he]
    exact unload_reaches _ _ _ _
  · simp only [if_neg he]
    refine .head ?_
    simp only [step]
    refine (undo_reaches (md := md) rfl [] _ rfl).trans ?_
    refine .head ?_
    simp only [step]
    refine .head ?_
    simp only [step, List.nil_append]
    refine (unload_reaches _ _ _ _).trans ?_
    unfold revertPatch
    simp only
    exact .refl

/-- What `load_patch` does once the metadata are there. -/
def rest (w : World) (m : Meta) (s : State) : State × Err :=
  if m.type = 1 then applyRest w m s
  else if m.type = 2 then revertRest m.id s
  else if m.type = 0 then (s, ENOMETA) else (s, EUNKNOWN)

theorem dispatch_reaches {v : Env} {buf} {p : Proc} {md : Md} (h : p.ref = some md)
    (hn : md.named = true) (ho : md.mt.type ≠ 2 → md.opened = true) (hf : md.freed = false) :
    Reaches v buf (p, .dispatch) (⟨(rest v.w md.mt p.st).1, none, p.stuck⟩, .ret (rest v.w md.mt p.st).2) := by
  unfold rest
  by_cases h1 : md.mt.type = 1
  · rw [if_pos h1]; exact apply_reaches h h1 hn (ho (by rw [h1]; decide)) hf
  · rw [if_neg h1]
    by_cases h2 : md.mt.type = 2
    · rw [if_pos h2]; exact revert_reaches h h2 hf
    · rw [if_neg h2]
      refine .head ?_
      simp only [step, h, hf]
      simp only [Bool.false_eq_true, if_false, if_neg h1, if_neg h2]
      by_cases h0 : md.mt.type = 0
      · simp only [if_pos h0]; exact unload_reaches _ _ _ _
      · simp only [if_neg h0]; exact unload_reaches _ _ _ _

theorem rest_full (w : World) (m : Meta) (b : Bool) (s : State) : rest w (full m b).mt s = rest w m s := by
  unfold full
  by_cases h : m.type = 2
  · simp only [if_pos h, rest, h]
    simp
  · simp only [if_neg h]

theorem full_type (m : Meta) (b) : (full m b).mt.type = m.type := by
  unfold full
  by_cases h : m.type = 2 <;> simp [h]

theorem loadPatch_rest (w : World) (m : Meta) (s : State) :
    loadPatch w m s = if m.type ≠ 2 ∧ sanity w m s ≠ 0 then (s, sanity w m s)
      else if m.type ≠ 2 ∧ !w.dlopenOk then (s, EDLOPEN) else rest w m s := by
  unfold loadPatch rest
  by_cases h2 : m.type = 2
  · simp [h2, revertRest]
  · simp only [if_neg h2, ne_eq, h2, not_false_eq_true, true_and]
    by_cases hs : sanity w m s = 0
    · simp only [hs, not_true_eq_false, if_false]
      rfl
    · simp only [if_false, hs, not_false_eq_true, if_true]

/-- The routine from the allocation of the metadata on. -/
theorem alloc_reaches (v : Env) (p : Proc) (m : Meta) :
    Reaches v (.ok m) (p, .alloc) (⟨(loadPatch v.w m p.st).1, none, p.stuck⟩, .ret (loadPatch v.w m p.st).2) := by
  refine .head ?_
  simp only [step]
  refine (read_reaches _ _ _ .zero _ rfl).trans ?_
  rw [fill_items]
  refine .head ?_
  simp only [step, full_type]
  rw [loadPatch_rest]
  by_cases h2 : m.type = 2
  · simp only [h2, if_true, ne_eq, not_true_eq_false, false_and, if_false]
    refine .head ?_
    simp only [step]
    refine (dispatch_reaches (md := full m false) rfl rfl (by rw [full_type]; exact fun h => absurd h2 h) rfl).trans ?_
    simp only [rest_full]
    exact .refl
  · have hm : (full m false).mt = m := by unfold full; rw [if_neg h2]
    simp only [h2, if_false, ne_eq, not_false_eq_true, true_and]
    refine .head ?_
    simp only [step, hm]
    by_cases hs : sanity v.w m p.st = 0
    · simp only [hs, ne_eq, not_true_eq_false, if_false]
      refine .head ?_
      simp only [step]
      by_cases hd : v.w.dlopenOk = true
      · simp only [hd, Bool.not_true, Bool.false_eq_true, if_false, if_true]
        refine .head ?_
        simp only [step]
        refine (dispatch_reaches (md := { full m false with opened := true }) rfl rfl (fun _ => rfl) rfl).trans ?_
        simp only [hm]
        exact .refl
      · simp only [Bool.not_eq_true] at hd
        simp only [hd, Bool.not_false, Bool.false_eq_true, if_false, if_true]
        exact unload_reaches _ _ _ _
    · simp only [hs, ne_eq, not_false_eq_true, if_true]
      exact unload_reaches _ _ _ _

/-- A request from its start to its end, nothing being left from an earlier one. -/
theorem whole_reaches (v : Env) (buf) (p : Proc) (hr : p.ref = none) (hs : p.stuck = false) :
    Reaches v buf (p, .gate) (⟨(applyPatch v.w buf p.st).1, none, false⟩, .ret (applyPatch v.w buf p.st).2) := by
  obtain ⟨st, ref, stuck⟩ := p
  simp only at hr hs
  subst hr hs
  refine .head ?_
  have he : v.entry ⟨st, none, false⟩ = v.w := by simp [Env.entry]
  simp only [step, he, applyPatch]
  generalize gate v.w st = g
  obtain ⟨s, _ | e⟩ := g
  · simp only [Option.isSome_none, Bool.false_eq_true, if_false]
    cases buf with
    | ok m => exact alloc_reaches v _ m
    | error e => exact .head (unload_reaches _ _ _ _)
  · exact .refl

/-! ### how far a request has come -/

theorem addDetour_patches (s : State) (old d) : (addDetour s old d).patches = s.patches := (addDetour_ok s old d).patches

theorem applyUnits_patches (w lib id) (us : List UnitM) (s : State) :
    (applyUnits w lib id us s).1.patches = s.patches := by
  induction us generalizing s with
  | nil => rfl
  | cons u us ih =>
    simp only [applyUnits]
    split
    · rfl
    split
    · rfl
    have h := patchAddr_patches (addDetour s (w.oldSym (getBasename lib) u.oldName u.oldAddr)
      { univ := s.univ, target := w.newSym u.newName, id := id, active := true })
      (w.oldSym (getBasename lib) u.oldName u.oldAddr) (w.newSym u.newName) true
    rw [addDetour_patches] at h
    generalize patchAddr _ _ _ true = r at h
    obtain ⟨s1, e1⟩ := r
    simp only at h ⊢
    split
    · exact h
    · rw [ih]; exact h

/-- One more unit. -/
theorem applyUnits_snoc {w lib id} {us : List UnitM} {u : UnitM} {s s1 s2 : State} (h : applyUnits w lib id us s = (s1, 0))
    (ho : w.oldSym (getBasename lib) u.oldName u.oldAddr ≠ 0) (hn : w.newSym u.newName ≠ 0)
    (hp : patchAddr (addDetour s1 (w.oldSym (getBasename lib) u.oldName u.oldAddr)
      { univ := s1.univ, target := w.newSym u.newName, id := id, active := true })
      (w.oldSym (getBasename lib) u.oldName u.oldAddr) (w.newSym u.newName) true = (s2, 0)) :
    applyUnits w lib id (us ++ [u]) s = (s2, 0) := by
  induction us generalizing s with
  | nil =>
    simp only [applyUnits, Prod.mk.injEq, and_true] at h
    subst h
    simp only [List.nil_append, applyUnits, if_neg ho, if_neg hn, hp, if_neg (Nat.lt_irrefl 0)]
  | cons x us ih =>
    simp only [List.cons_append, applyUnits] at h ⊢
    by_cases h1 : w.oldSym (getBasename lib) x.oldName x.oldAddr = 0
    · rw [if_pos h1] at h; simp [ENOOLDFUNC] at h
    rw [if_neg h1] at h ⊢
    by_cases h2 : w.newSym x.newName = 0
    · rw [if_pos h2] at h; simp [ENONEWFUNC] at h
    rw [if_neg h2] at h ⊢
    generalize patchAddr _ _ _ true = r at h ⊢
    obtain ⟨s3, e3⟩ := r
    simp only at h ⊢
    by_cases h3 : e3 > 0
    · rw [if_pos h3] at h
      simp only [Prod.mk.injEq] at h
      exact absurd h.2 (Nat.pos_iff_ne_zero.mp h3)
    · rw [if_neg h3] at h ⊢
      exact ih h

/-- The state when the patch is in the list, its units not yet begun. -/
def begun (s : State) (x : Applied) : State := { s with patches := x :: s.patches, univ := s.univ + 1 }

/-- What is known at each place of a request for `m` made to the calm process `p`. -/
def Track (v : Env) (p : Proc) (m : Meta) (c : Proc × Pc) : Prop :=
  match c.2 with
  | .gate | .alloc => c.1 = p
  | .read todo => ∃ done, items m = done ++ todo ∧ c.1 = { p with ref := some (done.foldl fill .zero) }
  | .sanity => m.type ≠ 2 ∧ c.1 = { p with ref := some (full m false) }
  | .dlopen => m.type ≠ 2 ∧ sanity v.w m p.st = 0 ∧ c.1 = { p with ref := some (full m false) }
  | .clean | .dispatch => (m.type ≠ 2 → sanity v.w m p.st = 0) ∧ c.1 = { p with ref := some (full m (decide (m.type ≠ 2))) }
  | .record _ _ => (m.type = 1 ∧ sanity v.w m p.st = 0) ∧ c.1 = { p with ref := some (full m true) }
  | .count => (m.type = 1 ∧ sanity v.w m p.st = 0) ∧ ∃ x, x.id = m.id ∧
      c.1 = { p with ref := some (full m true), st := { p.st with patches := x :: p.st.patches } }
  | .detour todo => (m.type = 1 ∧ sanity v.w m p.st = 0) ∧ c.1.ref = some (full m true) ∧ c.1.stuck = p.stuck ∧
      ∃ x, x.id = m.id ∧ ∃ done, m.units = done ++ todo ∧
        applyUnits v.w m.lib m.id done (begun p.st x) = (c.1.st, 0)
  | .entry old new todo => (m.type = 1 ∧ sanity v.w m p.st = 0) ∧ c.1.ref = some (full m true) ∧ c.1.stuck = p.stuck ∧
      ∃ x, x.id = m.id ∧ ∃ done u s, m.units = done ++ u :: todo ∧
        applyUnits v.w m.lib m.id done (begun p.st x) = (s, 0) ∧
        old = v.w.oldSym (getBasename m.lib) u.oldName u.oldAddr ∧ new = v.w.newSym u.newName ∧ old ≠ 0 ∧ new ≠ 0 ∧
        c.1.st = addDetour s old { univ := s.univ, target := new, id := m.id, active := true }
  | .base | .refs _ _ => m.type = 1 ∧ c.1.ref = some (full m true) ∧ c.1.stuck = p.stuck ∧
      ∃ x, x.id = m.id ∧ c.1.st.patches = x :: p.st.patches
  | _ => True

theorem full_mt {m : Meta} (h : m.type ≠ 2) (b) : (full m b).mt = m := by unfold full; rw [if_neg h]

theorem track_step {v : Env} {p : Proc} {m : Meta} (hc : Calm p) (hv : ready v) {c : Proc × Pc} (h : Track v p m c) :
    Track v p m (step v (.ok m) c) := by
  obtain ⟨q, pc⟩ := c
  cases pc with
  | gate =>
    simp only [Track] at h
    subst h
    rw [gate_calm hc.idle hc.err hc.free _ hv, hc.ref]
    simp [Track]
  | alloc =>
    simp only [Track] at h
    subst h
    simp only [step, Track]
    exact ⟨[], rfl, rfl⟩
  | read todo =>
    simp only [Track] at h
    obtain ⟨done, hd, rfl⟩ := h
    cases todo with
    | cons i is =>
      simp only [step, Track]
      exact ⟨done ++ [i], by simp [hd], by simp⟩
    | nil =>
      rw [List.append_nil] at hd
      rw [← hd, fill_items]
      simp only [step, full_type]
      by_cases h2 : m.type = 2
      · simp only [if_pos h2, Track]
        exact ⟨fun h => absurd h2 h, by simp [h2]⟩
      · simp only [if_neg h2, Track]
        exact ⟨h2, trivial⟩
  | sanity =>
    simp only [Track] at h
    obtain ⟨h2, rfl⟩ := h
    simp only [step, full_mt h2]
    by_cases he : sanity v.w m p.st ≠ 0
    · simp only [if_pos he, Track]
    · simp only [if_neg he, Track]
      exact ⟨h2, Decidable.not_not.mp he, trivial⟩
  | dlopen =>
    simp only [Track] at h
    obtain ⟨h2, hs, rfl⟩ := h
    simp only [step]
    by_cases hd : v.w.dlopenOk = true
    · simp only [if_pos hd, Track]
      exact ⟨fun _ => hs, by simp [full, h2]⟩
    · simp only [if_neg hd, Track]
  | clean => exact h
  | dispatch =>
    simp only [Track] at h
    obtain ⟨hs, rfl⟩ := h
    have hf : (full m (decide (m.type ≠ 2))).freed = false := rfl
    have hn : (full m (decide (m.type ≠ 2))).named = true := rfl
    simp only [step, full_type, hf, hn]
    simp only [Bool.false_eq_true, if_false, if_true]
    by_cases h1 : m.type = 1
    · simp only [if_pos h1, Track]
      exact ⟨⟨h1, hs (by rw [h1]; decide)⟩, by simp [h1]⟩
    · simp only [if_neg h1]
      by_cases h2 : m.type = 2
      · simp only [if_pos h2, Track]
      · simp only [if_neg h2]
        by_cases h0 : m.type = 0
        · simp only [if_pos h0, Track]
        · simp only [if_neg h0, Track]
  | record todo done =>
    simp only [Track] at h
    obtain ⟨h1, rfl⟩ := h
    cases todo with
    | nil =>
      simp only [step, Track]
      exact ⟨h1, _, by simp [full, h1.1], rfl⟩
    | cons u us =>
      simp only [step]
      split
      · simp only [Track]
      split
      · simp only [Track]
      · simp only [Track]
        exact ⟨h1, trivial⟩
  | count =>
    simp only [Track] at h
    obtain ⟨h1, x, hx, rfl⟩ := h
    simp only [step, Track]
    refine ⟨h1, trivial, trivial, x, hx, [], ?_, rfl⟩
    rw [full_mt (by rw [h1.1]; decide)]; rfl
  | detour todo =>
    simp only [Track] at h
    obtain ⟨h1, hr, hk, x, hx, done, hd, ha⟩ := h
    cases todo with
    | nil =>
      simp only [step, Track]
      refine ⟨h1.1, hr, hk, x, hx, ?_⟩
      have := applyUnits_patches v.w m.lib m.id done (begun p.st x)
      rw [ha] at this
      exact this
    | cons u us =>
      have hview : v.view (full m true) = v.w := rfl
      simp only [step, hr, full_mt (show m.type ≠ 2 by rw [h1.1]; decide), hview]
      by_cases ho : v.w.oldSym (getBasename m.lib) u.oldName u.oldAddr = 0
      · simp only [if_pos ho, fatal, Track]
      · simp only [if_neg ho]
        by_cases hn : v.w.newSym u.newName = 0
        · simp only [if_pos hn, fatal, Track]
        · simp only [if_neg hn, Track]
          exact ⟨h1, by simp, hk, x, hx, done, u, q.st, hd, ha, rfl, rfl, ho, hn, rfl⟩
  | entry old new us =>
    simp only [Track] at h
    obtain ⟨h1, hr, hk, x, hx, done, u, s, hd, ha, ho, hn, hoz, hnz, hst⟩ := h
    simp only [step, hst]
    generalize hp : patchAddr _ old new true = r
    obtain ⟨s2, e2⟩ := r
    simp only
    by_cases he : e2 > 0
    · simp only [if_pos he, fatal, Track]
    · simp only [if_neg he, Track]
      have he : e2 = 0 := by simpa using he
      subst he ho hn
      exact ⟨h1, hr, hk, x, hx, done ++ [u], by simp [hd], applyUnits_snoc ha hoz hnz hp⟩
  | base =>
    simp only [Track] at h
    obtain ⟨h1, hr, hk, x, hx, hpat⟩ := h
    simp only [step, hr]
    split
    · simp only [fatal, Track]
    split
    · simp only [Track]
    split
    · simp only [fatal, Track]
    split
    · simp only [fatal, Track]
    · simp only [Track]
      exact ⟨h1, hr, hk, x, hx, hpat⟩
  | refs so todo =>
    simp only [Track] at h
    obtain ⟨h1, hr, hk, x, hx, hpat⟩ := h
    cases todo with
    | nil => simp only [step, Track]
    | cons r rs =>
      simp only [step, hr]
      generalize (if r.patchOff = 0 then (v.view (full m true)).newSym r.refName else (so + r.patchOff) % 2 ^ 64) = a
      by_cases hz : r.patchOff = 0 ∧ a = 0
      · rw [if_pos hz]; simp only [fatal, Track]
      · rw [if_neg hz]; simp only [Track]
        exact ⟨h1, trivial, hk, x, hx, by simpa using hpat⟩
  | mayRevert =>
    simp only [step]
    split
    · simp only [Track]
    · split <;> simp only [Track]
  | bump => simp only [step, Track]
  | undo a b =>
    cases b with
    | nil => simp only [step, Track]
    | cons r rs =>
      simp only [step]
      split <;> simp only [Track]
  | remove => simp only [step]; split <;> simp only [Track]
  | unload e => simp only [step, Track]
  | drop e => simp only [step, Track]
  | ret e => simp only [step, Track]
  | undefined => simp only [step, Track]

theorem track {v : Env} {p : Proc} {m : Meta} (hc : Calm p) (hv : ready v) (k : Nat) :
    Track v p m (steps v (.ok m) k (p, .gate)) := by
  induction k with
  | zero => exact (rfl : p = p)
  | succ k ih => rw [steps_succ]; exact track_step hc hv ih

end Verif.Cut
