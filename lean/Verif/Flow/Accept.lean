import Verif.Flow.Spec

/-!
When libpulp accepts a live patch.
-/

namespace Verif.Flow

open Verif.Runtime
open Verif.Runtime.Spec (Image Idle Patch)

/-! ### Room in the queue -/

theorem insnSize_le {a : Nat} {bs : List UInt8} (h : bs.length ≤ 20) :
    (InsnQueue.Req.write a bs).insnSize ≤ 40 ∧ (InsnQueue.Req.write a bs).insnSize ≠ 0 := by
  unfold InsnQueue.Req.insnSize
  simp only
  generalize bs.length = n at h
  have key : ∀ n : Fin 21, (InsnQueue.alignTo (BitVec.ofNat 32 (16 + n.val)) 8).toNat ≤ 40 ∧
      (InsnQueue.alignTo (BitVec.ofNat 32 (16 + n.val)) 8).toNat ≠ 0 := by decide
  exact key ⟨n, by omega⟩

/-- `s'` is `s` after requests of writes that take at most `n` bytes of the queue. -/
structure Room (n : Nat) (s s' : State) : Prop where
  err : s'.err = s.err
  mem : s'.mem = s.mem
  size : s'.q.size ≤ s.q.size + n

theorem Room.refl (s : State) : Room 0 s s := ⟨rfl, rfl, Nat.le_refl _⟩

theorem Room.trans {a b : Nat} {s s' s'' : State} (h : Room a s s') (h' : Room b s' s'') : Room (a + b) s s'' :=
  ⟨h'.err.trans h.err, h'.mem.trans h.mem, by have := h.size; have := h'.size; omega⟩

theorem memwrite_room {s : State} {a : Nat} {bs : List UInt8} (h : bs.length ≤ 20) (hq : s.q.size + 40 ≤ InsnQueue.bufMax) :
    Room 40 s (memwrite s a bs) := by
  obtain ⟨h1, h2⟩ := insnSize_le (a := a) h
  obtain ⟨q, hi, hz⟩ : ∃ q, InsnQueue.insert? s.q (.write a bs) = some q ∧ q.size ≤ s.q.size + 40 := by
    unfold InsnQueue.insert?
    rw [if_neg h2, if_neg (by omega)]
    exact ⟨_, rfl, by simp only; omega⟩
  unfold memwrite InsnQueue.insert
  simp only [hi]
  exact ⟨rfl, rfl, hz⟩

theorem prologue_length (e : Bool) (g : Nat) : (X86.prologue e g).length ≤ 20 := by
  cases e <;> simp [X86.prologue, X86.endbr64]

theorem patchAddr_room {s : State} {old new : Nat} (hp : X86.patchable s.mem old = true) (hq : s.q.size + 40 ≤ InsnQueue.bufMax) :
    Room 40 s (patchAddr s old new true).1 ∧ (patchAddr s old new true).2 = 0 := by
  unfold patchAddr
  rw [X86.patchAddr_ok hp rfl]
  exact ⟨memwrite_room (prologue_length _ _) hq, rfl⟩

theorem addDetour_room (s : State) (old : Nat) (d : Detour) : Room 0 s (addDetour s old d) := by
  unfold addDetour
  simp only
  split <;> exact ⟨rfl, rfl, Nat.le_refl _⟩

theorem applyUnits_room {w : World} {lib : Str} {id : Id} (us : List UnitM) (s : State)
    (h : ∀ u ∈ us, w.oldSym (getBasename lib) u.oldName u.oldAddr ≠ 0 ∧ w.newSym u.newName ≠ 0 ∧
      X86.patchable s.mem (w.oldSym (getBasename lib) u.oldName u.oldAddr) = true)
    (hq : s.q.size + 40 * us.length ≤ InsnQueue.bufMax) :
    Room (40 * us.length) s (applyUnits w lib id us s).1 ∧ (applyUnits w lib id us s).2 = 0 := by
  induction us generalizing s with
  | nil => exact ⟨Room.refl s, rfl⟩
  | cons u us ih =>
    obtain ⟨h1, h2, h3⟩ := h u (by simp)
    simp only [applyUnits, if_neg h1, if_neg h2]
    simp only [List.length_cons] at hq
    generalize hd : addDetour s _ _ = s1
    have r1 : Room 0 s s1 := by rw [← hd]; exact addDetour_room _ _ _
    obtain ⟨r2, e2⟩ := patchAddr_room (s := s1) (old := w.oldSym (getBasename lib) u.oldName u.oldAddr) (new := w.newSym u.newName)
      (by rw [r1.mem]; exact h3) (by have := r1.size; omega)
    generalize hp : Runtime.patchAddr s1 _ _ true = x at r2 e2
    have r3 := r1.trans r2
    obtain ⟨r4, e4⟩ := ih x.1 (fun u hu => by rw [r3.mem]; exact h u (by simp [hu])) (by have := r3.size; omega)
    rw [if_neg (show ¬ x.2 > 0 by rw [e2]; exact Nat.lt_irrefl 0)]
    refine ⟨?_, e4⟩
    have r5 := r3.trans r4
    simp only [List.length_cons]
    exact ⟨r5.err, r5.mem, by have := r5.size; omega⟩

theorem applyRefs_room {w : World} {tb ti so : Nat} (rs : List RefM) (s : State)
    (h : ∀ r ∈ rs, r.patchOff = 0 → w.newSym r.refName ≠ 0) (hq : s.q.size + 40 * rs.length ≤ InsnQueue.bufMax) :
    Room (40 * rs.length) s (applyRefs w tb ti so rs s).1 ∧ (applyRefs w tb ti so rs s).2 = 0 := by
  induction rs generalizing s with
  | nil => exact ⟨Room.refl s, rfl⟩
  | cons r rs ih =>
    simp only [List.length_cons] at hq
    have hn : ¬ (r.patchOff = 0 ∧ (if r.patchOff = 0 then w.newSym r.refName else (so + r.patchOff) % 2 ^ 64) = 0) := by
      rintro ⟨h1, h2⟩
      rw [if_pos h1] at h2
      exact h r (by simp) h1 h2
    simp only [applyRefs]
    rw [if_neg hn]
    have hl : (if r.tls = true then le 8 ti ++ le 8 r.targetOff else le 8 (tb + r.targetOff)).length ≤ 20 := by
      split <;> simp
    generalize (if r.patchOff = 0 then w.newSym r.refName else (so + r.patchOff) % 2 ^ 64) = a
    generalize (if r.tls = true then le 8 ti ++ le 8 r.targetOff else le 8 (tb + r.targetOff)) = bs at hl
    have r1 := memwrite_room (s := s) (a := a) hl (by omega)
    obtain ⟨r2, e2⟩ := ih (memwrite s a bs) (fun r hr => h r (by simp [hr])) (by have := r1.size; omega)
    refine ⟨?_, e2⟩
    have r3 := r1.trans r2
    simp only [List.length_cons]
    exact ⟨r3.err, r3.mem, by have := r3.size; omega⟩

theorem resolveUnits_isSome {w : World} {lib : Str} (us : List UnitM)
    (h : ∀ u ∈ us, w.oldSym (getBasename lib) u.oldName u.oldAddr ≠ 0 ∧ w.newSym u.newName ≠ 0) :
    ∃ r, resolveUnits w lib us = some r := by
  induction us with
  | nil => exact ⟨_, rfl⟩
  | cons u us ih =>
    obtain ⟨r, hr⟩ := ih fun u hu => h u (by simp [hu])
    obtain ⟨h1, h2⟩ := h u (by simp)
    simp only [resolveUnits, if_neg h1, if_neg h2, hr]
    exact ⟨_, rfl⟩

/-- What a process must be like for a patch to be accepted. -/
theorem loadPatch_accepts {w : World} {m : Meta} {s : State} (ht : m.type = 1) (hb : w.buildIdOk = true) (hd : w.dlopenOk = true)
    (hdeps : ∀ d ∈ m.deps, ∃ p ∈ s.patches, p.id = d) (hid : ∀ p ∈ s.patches, p.id ≠ m.id)
    (hu : ∀ u ∈ m.units, w.oldSym (getBasename m.lib) u.oldName u.oldAddr ≠ 0 ∧ w.newSym u.newName ≠ 0 ∧
      X86.patchable s.mem (w.oldSym (getBasename m.lib) u.oldName u.oldAddr) = true)
    (hr : ∀ r ∈ m.refs, r.patchOff = 0 → w.newSym r.refName ≠ 0)
    (hl : w.libBase (getBasename m.lib) ≠ 0xff) {so : Nat} (hso : w.soBase = some so) (hso0 : so ≠ 0)
    (hq : s.q.size + 40 * (m.units.length + m.refs.length) ≤ InsnQueue.bufMax) :
    (loadPatch w m s).2 = 0 ∧ (loadPatch w m s).1.err = s.err := by
  have hsan : sanity w m s = 0 := by
    unfold sanity
    rw [if_neg (by simp [hb]), if_neg, if_neg]
    · unfold getApplied
      simp only [Option.isSome_iff_exists, not_exists]
      intro a ha
      exact hid a (List.mem_of_find?_eq_some ha) (by simpa using List.find?_some ha)
    · simp only [depsOk, Bool.not_eq_true', Bool.not_eq_false]
      rw [List.all_eq_true]
      intro d hd
      rw [List.any_eq_true]
      obtain ⟨p, hp, e⟩ := hdeps d hd
      exact ⟨p, hp, by simpa using e⟩
  obtain ⟨us, hus⟩ := resolveUnits_isSome (lib := m.lib) m.units fun u h => ⟨(hu u h).1, (hu u h).2.1⟩
  unfold loadPatch stateUpdate
  simp only [ht, hsan, hus, Option.map_some]
  rw [if_neg (show ¬ (1 : Nat) = 2 by decide), if_neg (by decide), if_neg (by simp [hd]), if_pos trivial]
  generalize hs1 : ({ s with patches := _ } : State) = s1
  have e1 : s1.err = s.err ∧ s1.mem = s.mem ∧ s1.q = s.q := by rw [← hs1]; exact ⟨rfl, rfl, rfl⟩
  have hall : (applyAllUnits w m s1).2 = 0 ∧ (applyAllUnits w m s1).1.err = s.err := by
    unfold applyAllUnits
    obtain ⟨r1, e2⟩ := applyUnits_room (w := w) (lib := m.lib) (id := m.id) m.units { s1 with univ := s1.univ + 1 }
      (by simp only [e1.2.1]; exact hu) (by simp only [e1.2.2]; omega)
    generalize hx : applyUnits w m.lib m.id m.units _ = x at r1 e2
    have hqx : x.1.q.size ≤ s.q.size + 40 * m.units.length := by have := r1.size; simpa only [e1.2.2] using this
    obtain ⟨r3, e3⟩ := applyRefs_room (w := w) (tb := w.libBase (getBasename m.lib)) (ti := w.tlsIdx (getBasename m.lib)) (so := so)
      m.refs x.1 hr (by omega)
    simp only [e2, hso]
    rw [if_neg (by simp), if_neg hl, if_neg hso0]
    exact ⟨e3, r3.err.trans (r1.err.trans e1.1)⟩
  generalize applyAllUnits w m s1 = y at hall
  obtain ⟨h1, h2⟩ := hall
  simp only [h1]
  rw [if_neg (by simp)]
  exact ⟨rfl, h2⟩

theorem settle_err (s : State) : (settle s).err = s.err := rfl

/-- The same for the whole request. -/
theorem serve_accepts {w : World} {m : Meta} {s : State} {fuel : Nat} (hi : Idle s) (he : s.err = ENONE) (hbusy : w.busy = false)
    (h : (loadPatch w m s).2 = 0 ∧ (loadPatch w m s).1.err = s.err) :
    ∃ s', serve fuel s (.apply w (.ok m)) = some (s', 0) ∧ s'.err = ENONE := by
  simp only [serve, applyPatch]
  rw [gate_clean hi, if_neg (by simp [he]), if_neg (by simp [hbusy])]
  simp only
  refine ⟨settle (loadPatch w m s).1, ?_, ?_⟩
  · rw [h.1]
  · rw [settle_err, h.2, he]

/-! ### Room in the metadata buffer -/

open Verif.Metadata.Spec (All₂)
open Verif.Dsc.Spec (Entry funcs refs RefFor UnitFor)
open Verif.Flow.Spec

theorem sum_le_of_all2 {α β} {R : α → β → Prop} {f : α → Nat} {g : β → Nat} (l : List α) (k : List β) (h : All₂ R l k)
    (hf : ∀ a b, b ∈ k → R a b → f a ≤ g b) : (l.map f).sum ≤ (k.map g).sum := by
  induction l generalizing k with
  | nil => simp
  | cons a l ih =>
    cases k with
    | nil => have := h.1; simp at this
    | cons b k =>
      have h0 := h.2 0 (by simp) (by simp)
      simp only [List.getElem_cons_zero] at h0
      have h1 := hf a b (by simp) h0
      have h2 := ih k ⟨by have := h.1; simpa using this, fun i h1 h2 => by
        have := h.2 (i + 1) (by simpa using h1) (by simpa using h2)
        simpa using this⟩ (fun a b hb => hf a b (by simp [hb]))
      simp only [List.map_cons, List.sum_cons]
      omega

theorem cost_split (es : List Entry) :
    ((funcs es).map fun f => f.1.length + f.2.length + 18).sum + ((refs es).map fun e => e.text.length + 25).sum ≤
      (es.map cost).sum := by
  induction es with
  | nil => simp [funcs, refs]
  | cons e es ih =>
    cases e with
    | func o n =>
      simp only [funcs, refs, List.filterMap_cons, List.filter_cons, List.map_cons, List.sum_cons, cost, Entry.text,
        List.length_append, List.length_cons, Bool.false_eq_true, if_false] at ih ⊢
      omega
    | ref tls t r =>
      simp only [funcs, refs, List.filterMap_cons, List.filter_cons, List.map_cons, List.sum_cons, cost, if_true] at ih ⊢
      omega
    | refAt tls t r a b =>
      simp only [funcs, refs, List.filterMap_cons, List.filter_cons, List.map_cons, List.sum_cons, cost, if_true] at ih ⊢
      omega
    | comment t =>
      simp only [funcs, refs, List.filterMap_cons, List.filter_cons, List.map_cons, List.sum_cons, cost, Bool.false_eq_true,
        if_false] at ih ⊢
      omega
    | blank =>
      simp only [funcs, refs, List.filterMap_cons, List.filter_cons, List.map_cons, List.sum_cons, cost, Bool.false_eq_true,
        if_false] at ih ⊢
      omega

theorem sum_reverse (l : List Nat) : l.reverse.sum = l.sum := by
  induction l with
  | nil => rfl
  | cons a l ih => simp only [List.reverse_cons, List.sum_append, List.sum_cons, List.sum_nil, ih]; omega

theorem packApply_length {p : Plan} {P : Metadata.Patch} (h : Dsc.Spec.Describes P p.d p.c p.t p.id p.deps)
    (hp : p.Packable) :
    (Metadata.packApply P).length ≤ p.t.name.length + 32 * p.d.deps.length + (p.d.entries.map cost).sum + 74 := by
  have h1 : (P.units.map fun u => (Metadata.packUnit u).length).sum ≤
      ((funcs p.d.entries).map fun f => f.1.length + f.2.length + 18).sum := by
    refine sum_le_of_all2 _ _ h.units fun u f _ hu => ?_
    simp only [Metadata.packUnit, Metadata.packStr, List.length_append, le_length, List.length_cons, List.length_nil, hu.1, hu.2.1]
    omega
  have h2 : (P.refs.map fun r => (Metadata.packRef r).length).sum ≤ ((refs p.d.entries).map fun e => e.text.length + 25).sum := by
    have := sum_le_of_all2 (f := fun r => (Metadata.packRef r).length) (g := fun e => e.text.length + 25) _ _ h.refs
      (fun r e _ hr => by
        simp only [Metadata.packRef, Metadata.packStr, List.length_append, le_length, List.length_cons, List.length_nil]
        cases e with
        | ref tls t r' =>
          obtain ⟨-, e1, e2, -⟩ := hr
          simp only [e1, e2, Entry.text, Dsc.Spec.mark, List.length_append, List.length_cons]
          split <;> simp <;> omega
        | refAt tls t r' a b =>
          obtain ⟨-, e1, e2, -⟩ := hr
          simp only [e1, e2, Entry.text, Dsc.Spec.mark, List.length_append, List.length_cons]
          split <;> simp <;> omega
        | _ => exact hr.elim)
    rw [List.map_reverse, sum_reverse] at this
    exact this
  have h3 : P.deps.length = p.d.deps.length := by
    have := hp.good.depFiles.1
    have h4 := congrArg List.length h.deps
    simp only [List.length_reverse] at h4
    omega
  have h5 : (P.deps.flatMap id).length = 32 * P.deps.length := by
    have hd : ∀ x ∈ P.deps, x.length = 32 := by
      intro x hx
      have hx' : x ∈ p.deps := by rw [← h.deps]; simpa using hx
      obtain ⟨i, hi, rfl⟩ := List.getElem_of_mem hx'
      exact (hp.good.depFiles.2 i (by rw [hp.good.depFiles.1]; exact hi) hi).1
    generalize P.deps = ds at hd
    induction ds with
    | nil => rfl
    | cons d ds ih =>
      have := hd d (by simp)
      have := ih fun x hx => hd x (by simp [hx])
      simp only [List.flatMap_cons, List.length_append, List.length_cons, id] at *
      omega
  have h6 := cost_split p.d.entries
  have h7 := hp.fits.id
  have h8 := hp.fits.buildId
  simp only [Metadata.packApply, Metadata.packBuildId, Metadata.packStr, List.length_append, le_length, List.length_cons,
    List.length_nil, List.length_flatMap, h.id, h.buildId, h.name] at h5 ⊢
  omega

theorem sent_isSome {p : Plan} (hp : p.Packable) (hsm : p.Small) : ∃ out, p.job.sent false = some out := by
  obtain ⟨hs, hl⟩ := hsm
  obtain ⟨P, h1, h2⟩ := Dsc.C80_describes hp.good p.id
  have h1' : Dsc.describe p.job.env p.job.id p.job.text = .ok P := h1
  have hlen := packApply_length h2 hp
  obtain ⟨out, ho⟩ := Metadata.C13_extract_succeeds (Dsc.good_describes hp.good hp.fits h2) hs (by omega)
  refine ⟨out, ?_⟩
  have ho' : Metadata.extract (Metadata.packApply P) p.job.path = .ok out := ho
  unfold Job.sent
  rw [h1']
  simp only [Bool.false_eq_true, if_false, ho']

theorem sent_revert_isSome {p : Plan} (hp : p.Packable) (hsm : p.Small) : ∃ out, p.job.sent true = some out := by
  obtain ⟨hs, hl⟩ := hsm
  obtain ⟨P, h1, h2⟩ := Dsc.C80_describes hp.good p.id
  have h1' : Dsc.describe p.job.env p.job.id p.job.text = .ok P := h1
  have h7 := hp.fits.id
  have h8 := hp.fits.buildId
  have hlen : (Metadata.packRevert P).length = p.t.name.length + 61 := by
    simp only [Metadata.packRevert, Metadata.packBuildId, List.length_append, le_length, List.length_cons, List.length_nil, h2.id,
      h2.buildId, h2.name]
    omega
  obtain ⟨out, ho⟩ := Metadata.extract_small (data := Metadata.packRevert P) (by omega) hs (by omega)
  refine ⟨out, ?_⟩
  have ho' : Metadata.extract (Metadata.packRevert P) p.job.path = .ok out := ho
  unfold Job.sent
  rw [h1']
  simp only [if_true, ho']

end Verif.Flow
