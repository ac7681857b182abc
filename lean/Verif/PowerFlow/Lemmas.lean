import Verif.PowerFlow.Spec
import Verif.PowerFlow.Model
import Verif.Flow.Props
import Verif.Power.Props

/-!
When libpulp accepts a live patch on POWER; what a plan's request is for a process that suits it.
-/

namespace Verif.PowerFlow

open Verif.Runtime
open Verif.Runtime.Spec (Image Idle Patch)
open Verif.Flow (Room memwrite_room insnSize_le addDetour_room resolveUnits_isSome settle_err)

variable {t : List UInt8}

/-! ### Room in the queue: 96 bytes for a function, 40 for a reference -/

theorem insnSize_stub {a : Nat} {bs : List UInt8} (h : bs.length = 52) : (InsnQueue.Req.write a bs).insnSize = 72 := by
  unfold InsnQueue.Req.insnSize
  simp only [h]
  decide

theorem insnSize_branch {a : Nat} {bs : List UInt8} (h : bs.length = 4) : (InsnQueue.Req.write a bs).insnSize = 24 := by
  unfold InsnQueue.Req.insnSize
  simp only [h]
  decide

theorem memwrite_room' {s : State} {a n : Nat} {bs : List UInt8} (h : (InsnQueue.Req.write a bs).insnSize = n) (h0 : n ≠ 0)
    (hq : s.q.size + n ≤ InsnQueue.bufMax) : Room n s (memwrite s a bs) := by
  obtain ⟨q, hi, hz⟩ : ∃ q, InsnQueue.insert? s.q (.write a bs) = some q ∧ q.size ≤ s.q.size + n := by
    unfold InsnQueue.insert?
    rw [if_neg (by omega), if_neg (by omega)]
    exact ⟨_, rfl, by simp only; omega⟩
  unfold memwrite InsnQueue.insert
  simp only [hi]
  exact ⟨rfl, rfl, hz⟩

theorem branch_length (off : Nat) : (Ppc.branchBytes off).length = 4 := by
  simp [Ppc.branchBytes]

theorem patchAddr_room (ht : t.length = 44) {s : State} {old new off : Nat} (hp : Ppc.getBranchOffset s.mem old = some off)
    (hq : s.q.size + 96 ≤ InsnQueue.bufMax) :
    Room 96 s (Power.patchAddr t s old new true).1 ∧ (Power.patchAddr t s old new true).2 = 0 := by
  unfold Power.patchAddr Ppc.patchAddr
  simp only [hp, if_true, and_true]
  simp only [List.cons_append, List.nil_append, Power.memwrites]
  have r1 := memwrite_room' (s := s) (n := 72) (insnSize_stub (a := old - Ppc.preLen) (bs := Ppc.prologue t new) (by simp [Ppc.prologue, ht]))
    (by decide) (by omega)
  have r2 := memwrite_room' (s := memwrite s (old - Ppc.preLen) (Ppc.prologue t new)) (n := 24)
    (insnSize_branch (a := old + off) (branch_length off)) (by decide) (by have := r1.size; omega)
  exact r1.trans r2

theorem applyUnits_room {w : World} {lib : Str} {id : Id} (us : List UnitM) (s : State) (ht : t.length = 44)
    (h : ∀ u ∈ us, w.oldSym (getBasename lib) u.oldName u.oldAddr ≠ 0 ∧ w.newSym u.newName ≠ 0 ∧
      ∃ off, Ppc.getBranchOffset s.mem (w.oldSym (getBasename lib) u.oldName u.oldAddr) = some off)
    (hq : s.q.size + 96 * us.length ≤ InsnQueue.bufMax) :
    Room (96 * us.length) s (Power.applyUnits t w lib id us s).1 ∧ (Power.applyUnits t w lib id us s).2 = 0 := by
  induction us generalizing s with
  | nil => exact ⟨Room.refl s, rfl⟩
  | cons u us ih =>
    obtain ⟨h1, h2, off, h3⟩ := h u (by simp)
    simp only [Power.applyUnits, if_neg h1, if_neg h2]
    simp only [List.length_cons] at hq
    generalize hd : addDetour s _ _ = s1
    have r1 : Room 0 s s1 := by rw [← hd]; exact addDetour_room _ _ _
    obtain ⟨r2, e2⟩ := patchAddr_room ht (s := s1) (old := w.oldSym (getBasename lib) u.oldName u.oldAddr) (new := w.newSym u.newName)
      (by rw [r1.mem]; exact h3) (by have := r1.size; omega)
    generalize hp : Power.patchAddr t s1 _ _ true = x at r2 e2
    have r3 := r1.trans r2
    obtain ⟨r4, e4⟩ := ih x.1 (fun u hu => by rw [r3.mem]; exact h u (by simp [hu])) (by have := r3.size; omega)
    rw [if_neg (show ¬ x.2 > 0 by rw [e2]; exact Nat.lt_irrefl 0)]
    refine ⟨?_, e4⟩
    have r5 := r3.trans r4
    simp only [List.length_cons]
    exact ⟨r5.err, r5.mem, by have := r5.size; omega⟩

theorem applyRefs_room {w : World} {tb ti so : Nat} (rs : List RefM) (s : State)
    (h : ∀ r ∈ rs, r.patchOff = 0 → w.newSym r.refName ≠ 0) (hq : s.q.size + 40 * rs.length ≤ InsnQueue.bufMax) :
    Room (40 * rs.length) s (Power.applyRefs w tb ti so rs s).1 ∧ (Power.applyRefs w tb ti so rs s).2 = 0 := by
  induction rs generalizing s with
  | nil => exact ⟨Room.refl s, rfl⟩
  | cons r rs ih =>
    simp only [List.length_cons] at hq
    have hn : ¬ (r.patchOff = 0 ∧ (if r.patchOff = 0 then w.newSym r.refName else (so + r.patchOff) % 2 ^ 64) = 0) := by
      rintro ⟨h1, h2⟩
      rw [if_pos h1] at h2
      exact h r (by simp) h1 h2
    simp only [Power.applyRefs]
    rw [if_neg hn]
    have hl : (if r.tls = true then le 8 ti ++ le 8 (r.targetOff + (2 ^ 64 - Power.tlsDtvOffset)) else le 8 (tb + r.targetOff)).length ≤ 20 := by
      split <;> simp
    generalize (if r.patchOff = 0 then w.newSym r.refName else (so + r.patchOff) % 2 ^ 64) = a
    generalize (if r.tls = true then le 8 ti ++ le 8 (r.targetOff + (2 ^ 64 - Power.tlsDtvOffset)) else le 8 (tb + r.targetOff)) = bs at hl
    have r1 := memwrite_room (s := s) (a := a) hl (by omega)
    obtain ⟨r2, e2⟩ := ih (memwrite s a bs) (fun r hr => h r (by simp [hr])) (by have := r1.size; omega)
    refine ⟨?_, e2⟩
    have r3 := r1.trans r2
    simp only [List.length_cons]
    exact ⟨r3.err, r3.mem, by have := r3.size; omega⟩

/-- What a process must be like for a patch to be accepted. -/
theorem loadPatch_accepts {w : World} {m : Meta} {s : State} (htl : t.length = 44) (ht : m.type = 1) (hb : w.buildIdOk = true) (hd : w.dlopenOk = true)
    (hdeps : ∀ d ∈ m.deps, ∃ p ∈ s.patches, p.id = d) (hid : ∀ p ∈ s.patches, p.id ≠ m.id)
    (hu : ∀ u ∈ m.units, w.oldSym (getBasename m.lib) u.oldName u.oldAddr ≠ 0 ∧ w.newSym u.newName ≠ 0 ∧
      ∃ off, Ppc.getBranchOffset s.mem (w.oldSym (getBasename m.lib) u.oldName u.oldAddr) = some off)
    (hr : ∀ r ∈ m.refs, r.patchOff = 0 → w.newSym r.refName ≠ 0)
    (hl : w.libBase (getBasename m.lib) ≠ 0xff) {so : Nat} (hso : w.soBase = some so) (hso0 : so ≠ 0)
    (hq : s.q.size + 96 * m.units.length + 40 * m.refs.length ≤ InsnQueue.bufMax) :
    (Power.loadPatch t w m s).2 = 0 ∧ (Power.loadPatch t w m s).1.err = s.err := by
  have hsan : sanity w m s = 0 := by
    unfold sanity
    rw [if_neg (by simp [hb]), if_neg, if_neg]
    · unfold getApplied
      simp only [Option.isSome_iff_exists, not_exists]
      intro a ha
      exact hid a (List.mem_of_find?_eq_some ha) (by simpa using List.find?_some ha)
    · simp only [depsOk, Bool.not_eq_true', Bool.not_eq_false]
      rw [List.all_eq_true]
      intro d hd
      rw [List.any_eq_true]
      obtain ⟨p, hp, e⟩ := hdeps d hd
      exact ⟨p, hp, by simpa using e⟩
  obtain ⟨us, hus⟩ := resolveUnits_isSome (lib := m.lib) m.units fun u h => ⟨(hu u h).1, (hu u h).2.1⟩
  unfold Power.loadPatch stateUpdate
  simp only [ht, hsan, hus, Option.map_some]
  rw [if_neg (show ¬ (1 : Nat) = 2 by decide), if_neg (by decide), if_neg (by simp [hd]), if_pos trivial]
  generalize hs1 : ({ s with patches := _ } : State) = s1
  have e1 : s1.err = s.err ∧ s1.mem = s.mem ∧ s1.q = s.q := by rw [← hs1]; exact ⟨rfl, rfl, rfl⟩
  have hall : (Power.applyAllUnits t w m s1).2 = 0 ∧ (Power.applyAllUnits t w m s1).1.err = s.err := by
    unfold Power.applyAllUnits
    obtain ⟨r1, e2⟩ := applyUnits_room (w := w) (lib := m.lib) (id := m.id) m.units { s1 with univ := s1.univ + 1 } htl
      (by simp only [e1.2.1]; exact hu) (by simp only [e1.2.2]; omega)
    generalize hx : Power.applyUnits t w m.lib m.id m.units _ = x at r1 e2
    have hqx : x.1.q.size ≤ s.q.size + 96 * m.units.length := by have := r1.size; simpa only [e1.2.2] using this
    obtain ⟨r3, e3⟩ := applyRefs_room (w := w) (tb := w.libBase (getBasename m.lib)) (ti := w.tlsIdx (getBasename m.lib)) (so := so)
      m.refs x.1 hr (by omega)
    simp only [e2, hso]
    rw [if_neg (by simp), if_neg hl, if_neg hso0]
    exact ⟨e3, r3.err.trans (r1.err.trans e1.1)⟩
  generalize Power.applyAllUnits t w m s1 = y at hall
  obtain ⟨h1, h2⟩ := hall
  simp only [h1]
  rw [if_neg (by simp)]
  exact ⟨rfl, h2⟩

/-- The same for the whole request. -/
theorem serve_accepts {w : World} {m : Meta} {s : State} {fuel : Nat} (hi : Idle s) (he : s.err = ENONE) (hbusy : w.busy = false)
    (h : (Power.loadPatch t w m s).2 = 0 ∧ (Power.loadPatch t w m s).1.err = s.err) :
    ∃ s', Power.serve t fuel s (.apply w (.ok m)) = some (s', 0) ∧ s'.err = ENONE := by
  simp only [Power.serve, Power.applyPatch]
  rw [gate_clean hi, if_neg (by simp [he]), if_neg (by simp [hbusy])]
  simp only
  refine ⟨settle (Power.loadPatch t w m s).1, ?_, ?_⟩
  · rw [h.1]
  · rw [settle_err, h.2, he]

/-! ### The process suits -/

section

open Verif.Dsc.Spec (Entry funcs refs)
open Verif.Metadata.Spec (All₂)
open Verif.Flow (worldOf MUnit MRef mem_of_all2 map_eq_of_all2 toLink)
open Verif.Flow.Spec
open Verif.Runtime.Spec (patchOf)
open Spec

theorem old_addr {p : Plan} {F slot} (hf : Suits p F slot) {u : UnitM} {f : Str × Str} (hm : f ∈ funcs p.d.entries)
    (hu : MUnit p.t u f) :
    (worldOf p.objs p.prog p.w).oldSym (getBasename p.t.name) u.oldName u.oldAddr = p.old f.1 := by
  obtain ⟨h1, h0, -, h2, -⟩ := hf.funcs f hm
  obtain ⟨s, hs, hn, ho⟩ := hu.2.2
  have he : u.oldAddr = offsetOf p.t f.1 := by rw [← ho]; exact h1 s hs hn
  have := (SymLoad.C68_named_library_partial p.prog (getBasename p.t.name) u.oldName u.oldAddr p.before p.after p.target hf.name
    (by rw [he]; exact h0) hf.before hf.target hf.vdso hf.tables (by rw [he]; exact h2)).1
  show (SymLoad.getLoadedSymbolAddr p.objs p.prog _ _ _).1 = _
  rw [Plan.objs, this, he]
  rfl

theorem link_of {p : Plan} {F slot} (hf : Suits p F slot) {r : RefM} {x : Entry} (hx : x ∈ refs p.d.entries)
    (h : MRef p.t p.c r x) : p.link x = some (toLink r) ∧ toLink r ∈ p.links := by
  have hx' : x ∈ p.d.entries := by simp only [refs, List.mem_filter] at hx; exact hx.1
  have he : p.link x = some (toLink r) := by
    cases x with
    | ref tls tn rn =>
      obtain ⟨h1, h2, h3, ⟨s, hs, hn, ho⟩, s', hs', hn', ho'⟩ := h
      obtain ⟨c1, c2⟩ := hf.clear tls tn rn hx'
      simp only at h1 h2 h3 ho ho'
      unfold Plan.link toLink
      rw [h1, h3, ← ho, ← ho', c1 s hs hn, c2 s' hs' hn']
    | refAt tls tn rn a b =>
      obtain ⟨h1, h2, h3, h4, h5⟩ := h
      simp only at h1 h2 h3 h4 h5
      unfold Plan.link toLink
      rw [h1, h3, h4, h5]
    | _ => exact h.elim
  exact ⟨he, List.mem_filterMap.2 ⟨x, hx', he⟩⟩

theorem fits_apply {p : Plan} {F slot} (hf : Suits p F slot) {m : Meta} (hl : m.lib = p.t.name)
    (hu : All₂ (MUnit p.t) m.units (funcs p.d.entries)) (hr : All₂ (MRef p.t p.c) m.refs.reverse (refs p.d.entries)) :
    Power.Spec.Fits F slot (.apply (worldOf p.objs p.prog p.w) (.ok m)) := by
  intro _
  refine ⟨?_, ?_⟩
  · intro u hu'
    obtain ⟨f, hfm, hfu⟩ := mem_of_all2 hu hu'
    simp only
    rw [hl, old_addr hf hfm hfu]
    obtain ⟨-, -, h1, -, h3, h4⟩ := hf.funcs f hfm
    have hn : (worldOf p.objs p.prog p.w).newSym u.newName = p.new f.2 := by
      show p.w.newSym _ = _
      rw [hfu.2.1, h3]
    rw [hn]
    exact .inr ⟨h1, h4⟩
  · intro r hr' so hso
    obtain ⟨x, hx, hxr⟩ := mem_of_all2 hr (a := r) (by simpa using hr')
    obtain ⟨hl1, hl2⟩ := link_of hf hx hxr
    exact hf.links _ hl2 so hso

theorem patch_apply {p : Plan} {F slot} (hf : Suits p F slot) {m : Meta} (hi : m.id = p.id) (hl : m.lib = p.t.name)
    (hu : All₂ (MUnit p.t) m.units (funcs p.d.entries)) (hd : m.deps = p.deps.reverse) :
    patchOf (worldOf p.objs p.prog p.w) m = p.patch := by
  unfold patchOf Plan.patch
  rw [hi, hl, hd]
  congr 1
  refine map_eq_of_all2 hu fun u f hfm hfu => ?_
  rw [old_addr hf hfm hfu]
  have hn : (worldOf p.objs p.prog p.w).newSym u.newName = p.new f.2 := by
    show p.w.newSym _ = _
    rw [hfu.2.1, (hf.funcs f hfm).2.2.2.2.1]
  rw [hn]

theorem links_eq {p : Plan} {F slot} (hf : Suits p F slot) {rs : List RefM} (h : All₂ (MRef p.t p.c) rs (refs p.d.entries)) :
    rs.map toLink = p.links := by
  have h1 : ∀ es : List Entry, es.filterMap p.link = (refs es).filterMap p.link := by
    intro es
    induction es with
    | nil => rfl
    | cons e es ih =>
      cases e <;> simp [refs, Plan.link] at ih ⊢ <;> exact ih
  unfold Plan.links
  rw [h1]
  have h2 : ∀ (rs : List RefM) (es : List Entry), (∀ e ∈ es, e ∈ refs p.d.entries) → All₂ (MRef p.t p.c) rs es →
      rs.map toLink = es.filterMap p.link := by
    intro rs
    induction rs with
    | nil =>
      intro es _ h
      have := h.1
      cases es with
      | nil => rfl
      | cons => simp at this
    | cons r rs ih =>
      intro es he h
      cases es with
      | nil => have := h.1; simp at this
      | cons e es =>
        have h0 := h.2 0 (by simp) (by simp)
        simp only [List.getElem_cons_zero] at h0
        rw [List.filterMap_cons, (link_of hf (he e (by simp)) h0).1, List.map_cons]
        simp only
        rw [ih es (fun e' h' => he e' (by simp [h'])) ⟨by have := h.1; simpa using this, fun i h1 h2 => by
          have := h.2 (i + 1) (by simpa using h1) (by simpa using h2)
          simpa using this⟩]
  exact h2 rs _ (fun _ h => h) h

/-- Where libpulp finds the target. -/
theorem target_found {p : Plan} {F slot} (hf : Suits p F slot) :
    (worldOf p.objs p.prog p.w).libBase (getBasename p.t.name) = p.target.bias ∧
    (worldOf p.objs p.prog p.w).tlsIdx (getBasename p.t.name) = p.target.tls := by
  have hs : SymLoad.searchName p.prog (getBasename p.t.name) = getBasename p.t.name := by simp [SymLoad.searchName, hf.name]
  have hm : SymLoad.Mentions (getBasename p.t.name) p.target := by
    rw [SymLoad.Mentions, ← hf.target]; exact SymLoad.basename_infix _
  obtain ⟨r', hr, -⟩ := SymLoad.base_skip (getBasename p.t.name) p.before (p.target :: p.after) (0, some 0) hf.before
  refine ⟨?_, ?_⟩
  · show SymLoad.baseAddr p.objs p.prog _ = _
    rw [SymLoad.baseAddr, hs, Plan.objs, hr, SymLoad.base_hit _ _ _ _ hf.vdso hm]
  · show (SymLoad.tlsIndex p.objs p.prog _).getD _ = _
    rw [SymLoad.tlsIndex, hs, Plan.objs, hr, SymLoad.base_hit _ _ _ _ hf.vdso hm]
    rfl

end

end Verif.PowerFlow
