import Verif.Power.Model
import Verif.Power.Spec
import Verif.Runtime.Invariant
import Verif.Ppc.Props

/-! Helper facts for the runtime model on POWER. -/

namespace Verif.Power

open Verif.Runtime
open Verif.Runtime.Spec (Patch track trackAll replacement healthy Idle patchOf libKey refAddr refSize)
open Power.Spec (callDest entryOff body inStub Image Fits)
open Verif.InsnQueue (Req Holds touches Queue)
open Verif.InsnQueue.Spec (perform)

/-! ### queueing writes -/

def reqs (ws : List (Nat × List UInt8)) : List Req := ws.map fun w => .write w.1 w.2

theorem memwrites_emits (s : State) (ws : List (Nat × List UInt8)) (hv : ∀ w ∈ ws, Valid (.write w.1 w.2)) :
    Emits s (memwrites s ws) (reqs ws) := by
  induction ws generalizing s with
  | nil => exact Emits.refl s
  | cons w ws ih =>
    exact (memwrite_emits s (hv w (by simp))).trans (ih _ (fun x hx => hv x (by simp [hx])))

@[simp] theorem memwrites_patches (s : State) (ws) : (memwrites s ws).patches = s.patches := by
  induction ws generalizing s with
  | nil => rfl
  | cons w ws ih => simp [memwrites, ih]
@[simp] theorem memwrites_roots (s : State) (ws) : (memwrites s ws).roots = s.roots := by
  induction ws generalizing s with
  | nil => rfl
  | cons w ws ih => simp [memwrites, ih]
@[simp] theorem memwrites_univ (s : State) (ws) : (memwrites s ws).univ = s.univ := by
  induction ws generalizing s with
  | nil => rfl
  | cons w ws ih => simp [memwrites, ih]
@[simp] theorem memwrites_mem (s : State) (ws) : (memwrites s ws).mem = s.mem := by
  induction ws generalizing s with
  | nil => rfl
  | cons w ws ih => simp [memwrites, ih]

@[simp] theorem patchAddr_patches (t) (s : State) (a b e) : (patchAddr t s a b e).1.patches = s.patches := by
  simp [patchAddr]
@[simp] theorem patchAddr_roots (t) (s : State) (a b e) : (patchAddr t s a b e).1.roots = s.roots := by
  simp [patchAddr]
@[simp] theorem patchAddr_univ (t) (s : State) (a b e) : (patchAddr t s a b e).1.univ = s.univ := by
  simp [patchAddr]
@[simp] theorem patchAddr_mem (t) (s : State) (a b e) : (patchAddr t s a b e).1.mem = s.mem := by
  simp [patchAddr]

/-! ### entries -/

/-- What is at the entry of `f`, its NOP being at `f + off`: redirected to `g` or plain. -/
structure Entry (t : List UInt8) (m : Mem) (off f : Nat) (x : Option Nat) : Prop where
  offs : off = 0 ∨ off = 8
  start : off = 8 → m.load f 4 ≠ Ppc.nop ∧ m.load f 4 ≠ Ppc.branchBytes 0
  insn : m.load (f + off) 4 = if x.isSome then Ppc.branchBytes off else Ppc.nop
  stub : ∀ g, x = some g → m.load (f - 52) 52 = t ++ le 8 g

/-- The bytes of the pad of `f`. -/
def pad (off f i : Nat) : Prop := f - 52 ≤ i ∧ i < f + off + 4

/-- Those that get written. -/
def cell (off f i : Nat) : Prop := (f - 52 ≤ i ∧ i < f) ∨ (f + off ≤ i ∧ i < f + off + 4)

theorem cell_pad {off f i} (h : cell off f i) : pad off f i := by
  unfold cell at h; unfold pad; omega

theorem inPad_iff (m : Mem) (f i) : Spec.inPad m f i ↔ pad (entryOff m f) f i := by
  unfold Spec.inPad pad body; rfl

theorem inStub_iff (m : Mem) (f i) : inStub m f i ↔ cell (entryOff m f) f i := by
  unfold inStub cell; rfl

theorem Entry.congr {t} {m m' : Mem} {off f x} (hf : 52 ≤ f) (h : ∀ i, pad off f i → m i = m' i)
    (he : Entry t m off f x) : Entry t m' off f x := by
  have h0 : off = 8 → m'.load f 4 = m.load f 4 := fun ho =>
    load_congr fun i a b => (h i ⟨by omega, by omega⟩).symm
  refine ⟨he.offs, fun ho => by rw [h0 ho]; exact he.start ho, ?_, fun g hg => ?_⟩
  · rw [← he.insn]; exact load_congr fun i a b => (h i ⟨by omega, by omega⟩).symm
  · rw [← he.stub g hg]; exact load_congr fun i a b => (h i ⟨by omega, by omega⟩).symm

theorem Entry.ready {t} {m : Mem} {off f x} (he : Entry t m off f x) : Ppc.getBranchOffset m f = some off := by
  have hi : m.load (f + off) 4 = Ppc.nop ∨ m.load (f + off) 4 = Ppc.branchBytes off := by
    rw [he.insn]; cases x <;> simp
  unfold Ppc.getBranchOffset
  rcases he.offs with rfl | rfl
  · rw [if_pos (by simpa using hi)]
  · have := he.start rfl
    rw [if_neg (by rintro (h | h); exact this.1 h; exact this.2 h), if_pos hi]

/-- The writes redirecting or disabling `f`. -/
def entryWrites (t : List UInt8) (off f : Nat) : Option Nat → List Req
  | none => [.write (f + off) Ppc.nop]
  | some g => [.write (f - 52) (t ++ le 8 g), .write (f + off) (Ppc.branchBytes off)]

theorem entryWrites_inSet {t off f x} (ht : t.length = 44) (hf : 52 ≤ f) : InSet (cell off f) (entryWrites t off f x) := by
  intro w hw i hi
  cases x with
  | none =>
    simp only [entryWrites, List.mem_singleton] at hw
    subst hw
    simp only [touches, Ppc.nop, List.length_cons, List.length_nil] at hi
    unfold cell; omega
  | some g =>
    simp only [entryWrites, List.mem_cons, List.not_mem_nil, or_false] at hw
    rcases hw with rfl | rfl
    · simp only [touches, List.length_append, ht, le_length] at hi
      unfold cell; omega
    · simp only [touches, Ppc.branch_length] at hi
      unfold cell; omega

theorem entryWrites_entry {t} {m : Mem} {off f x} (y) (ht : t.length = 44) (hf : 52 ≤ f) (h : Entry t m off f x) :
    Entry t (perform m (entryWrites t off f y)) off f y := by
  have hfr : ∀ i, ¬ cell off f i → perform m (entryWrites t off f y) i = m i := fun i hi =>
    perform_inSet (entryWrites_inSet ht hf) hi
  refine ⟨h.offs, fun ho => ?_, ?_, fun g hg => ?_⟩
  · have : (perform m (entryWrites t off f y)).load f 4 = m.load f 4 :=
      load_congr fun i a b => hfr i (by unfold cell; omega)
    rw [this]; exact h.start ho
  · cases y with
    | none =>
      simp only [entryWrites, perform]
      exact load_store (bytes := Ppc.nop)
    | some g =>
      simp only [entryWrites, perform]
      have := load_store (m := m.store (f - 52) (t ++ le 8 g)) (a := f + off) (bytes := Ppc.branchBytes off)
      rw [Ppc.branch_length] at this
      simpa using this
  · subst hg
    simp only [entryWrites, perform]
    have hl : (t ++ le 8 g).length = 52 := by simp [ht]
    have h1 := load_store (m := m) (a := f - 52) (bytes := t ++ le 8 g)
    rw [hl] at h1
    rw [load_store_out (by omega)]
    exact h1

theorem nop_length : Ppc.nop.length = 4 := rfl

/-- `patchAddr` on an entry whose NOP is known. -/
theorem patchAddr_ready {t} {s : State} {off f} (x : Option Nat) (ht : t.length = 44)
    (hp : Ppc.getBranchOffset s.mem f = some off) (hf : f + 12 < 2 ^ 64) :
    Emits s (patchAddr t s f (x.getD 0) x.isSome).1 (entryWrites t off f x) ∧
    (patchAddr t s f (x.getD 0) x.isSome).2 = 0 := by
  have ho := Ppc.offset_cases hp
  cases x with
  | none =>
    have he : Ppc.patchAddr t s.mem f 0 false = (0, [(f + off, Ppc.nop)]) := by simp [Ppc.patchAddr, hp]
    simp only [patchAddr, Option.getD_none, Option.isSome_none, he, and_true]
    refine memwrites_emits s _ ?_
    intro w hw
    simp only [List.mem_singleton] at hw
    subst hw
    exact ⟨by simp only; omega, by simp [nop_length]⟩
  | some g =>
    have he : Ppc.patchAddr t s.mem f g true =
        (0, [(f - 52, t ++ le 8 g), (f + off, Ppc.branchBytes off)]) := by
      simp [Ppc.patchAddr, hp, Ppc.prologue, Ppc.preLen]
    simp only [patchAddr, Option.getD_some, Option.isSome_some, he, and_true]
    refine memwrites_emits s _ ?_
    intro w hw
    simp only [List.mem_cons, List.not_mem_nil, or_false] at hw
    rcases hw with rfl | rfl
    · exact ⟨by simp only; omega, by simp [ht]⟩
    · exact ⟨by simp only; omega, by simp [Ppc.branch_length]⟩

/-! ### applying the units of a patch -/

/-- The unit loop when it succeeds on entries that are ready. -/
theorem applyUnits_ok {t w lib id} (htl : t.length = 44) {F : Nat → Prop} {e0 : Nat → Nat} (hF : ∀ f, F f → 52 ≤ f ∧ f + 12 < 2 ^ 64)
    (us : List UnitM) (s s' : State) (h : applyUnits t w lib id us s = (s', 0))
    (hready : ∀ f, F f → Ppc.getBranchOffset s.mem f = some (e0 f))
    (hfit : ∀ u ∈ resolved w lib us, u.1 = 0 ∨ F u.1) :
    Emits s s' ((resolved w lib us).flatMap fun u => entryWrites t (e0 u.1) u.1 (some u.2)) ∧
    s'.patches = s.patches ∧ s'.univ = s.univ ∧
    (∀ f, stackOf s'.roots f = (((resolved w lib us).filter (fun u => u.1 = f)).map
        (fun u => { univ := s.univ, target := u.2, id := id, active := true : Detour })).reverse
        ++ stackOf s.roots f) ∧
    (∀ a, a ∈ s'.roots.map (fun r => r.addr) ↔
      a ∈ (resolved w lib us).map (fun u => u.1) ∨ a ∈ s.roots.map (fun r => r.addr)) ∧
    ((s.roots.map (fun r => r.addr)).Nodup → (s'.roots.map (fun r => r.addr)).Nodup) ∧
    (∀ u ∈ resolved w lib us, F u.1) := by
  induction us generalizing s with
  | nil =>
    simp only [applyUnits, Prod.mk.injEq, and_true] at h
    subst h
    exact ⟨Emits.refl _, rfl, rfl, by simp [resolved], by simp [resolved], fun hn => hn, by simp [resolved]⟩
  | cons u us ih =>
    simp only [applyUnits] at h
    split at h
    · simp [ENOOLDFUNC] at h
    rename_i hold
    split at h
    · simp [ENONEWFUNC] at h
    rename_i hnew
    generalize hd : ({ univ := s.univ, target := w.newSym u.newName, id := id, active := true } : Detour) = d at h
    generalize ho : w.oldSym (getBasename lib) u.oldName u.oldAddr = old at h hold
    have hFo : F old := by
      have := hfit (old, w.newSym u.newName) (by simp [resolved, ho])
      simpa [hold] using this
    have ha := addDetour_ok s old d
    generalize hs1 : addDetour s old d = s1 at h ha
    have hr1 : Ppc.getBranchOffset s1.mem old = some (e0 old) := by
      rw [ha.mem]; exact hready old hFo
    have hp := patchAddr_ready (s := s1) (some (w.newSym u.newName)) htl hr1 (hF old hFo).2
    simp only [Option.getD_some, Option.isSome_some] at hp
    have h2 : (patchAddr t s1 old (w.newSym u.newName) true).1.mem = s1.mem := by simp
    have h3 : (patchAddr t s1 old (w.newSym u.newName) true).1.patches = s1.patches := by simp
    have h4 : (patchAddr t s1 old (w.newSym u.newName) true).1.univ = s1.univ := by simp
    have h5 : (patchAddr t s1 old (w.newSym u.newName) true).1.roots = s1.roots := by simp
    generalize hs2 : patchAddr t s1 old (w.newSym u.newName) true = p2 at h hp h2 h3 h4 h5
    obtain ⟨s2, e2⟩ := p2
    obtain ⟨hem, rfl⟩ := hp
    simp only at h h2 h3 h4 h5 hem
    rw [if_neg (Nat.lt_irrefl 0)] at h
    obtain ⟨i1, i2, i3, i4, i5, i6, i7⟩ := ih s2 h (by rw [h2, ha.mem]; exact hready)
      (fun x hx => hfit x (by simp only [resolved, List.map_cons, List.mem_cons] at hx ⊢; exact Or.inr hx))
    have hres : resolved w lib (u :: us) = (old, w.newSym u.newName) :: resolved w lib us := by
      simp [resolved, ho]
    rw [hres]
    refine ⟨?_, by rw [i2, h3, ha.patches], by rw [i3, h4, ha.univ], ?_, ?_, ?_, ?_⟩
    · have hem' : Emits s s2 (entryWrites t (e0 old) old (some (w.newSym u.newName))) :=
        hem.of_fields ha.q.symm ha.mem.symm ha.err.symm rfl rfl rfl
      exact hem'.trans i1
    · intro f
      rw [i4 f, h4, ha.univ, h5, ha.stack f]
      by_cases hf : f = old
      · subst hf; simp [hd]
      · have : ¬ old = f := fun h => hf h.symm
        simp [hf, this]
    · intro a
      rw [i5 a, h5, ha.addrs a]
      simp only [List.map_cons, List.mem_cons]
      constructor
      · rintro (h | h | h) <;> simp [h]
      · rintro ((h | h) | h) <;> simp [h]
    · intro hn
      apply i6
      rw [h5]
      exact ha.nodup hn
    · intro x hx
      rcases List.mem_cons.mp hx with rfl | hx
      · exact hFo
      · exact i7 x hx

/-- What is stored for a reference. -/
def refBytes (targetBase tlsIdx : Nat) (r : RefM) : List UInt8 :=
  if r.tls then le 8 tlsIdx ++ le 8 (r.targetOff + (2 ^ 64 - 0x8000)) else le 8 (targetBase + r.targetOff)

theorem refBytes_length (tb ti r) : (refBytes tb ti r).length = refSize r := by
  unfold refBytes refSize; split <;> simp

theorem applyRefs_ok {w tb ti so} (refs : List RefM) (s s' : State)
    (h : applyRefs w tb ti so refs s = (s', 0)) (hv : ∀ r ∈ refs, refAddr w so r < 2 ^ 64) :
    Emits s s' (refs.map fun r => .write (refAddr w so r) (refBytes tb ti r)) ∧
    s'.patches = s.patches ∧ s'.univ = s.univ ∧ s'.roots = s.roots := by
  induction refs generalizing s with
  | nil =>
    simp only [applyRefs, Prod.mk.injEq, and_true] at h
    subst h
    exact ⟨Emits.refl _, rfl, rfl, rfl⟩
  | cons r rs ih =>
    simp only [applyRefs] at h
    change (if r.patchOff = 0 ∧ refAddr w so r = 0 then (s, ENONEWFUNC) else
      applyRefs w tb ti so rs (memwrite s (refAddr w so r) (refBytes tb ti r))) = _ at h
    split at h
    · simp [ENONEWFUNC] at h
    · obtain ⟨i1, i2, i3, i4⟩ := ih _ h (fun r hr => hv r (by simp [hr]))
      refine ⟨?_, by rw [i2]; simp, by rw [i3]; simp, by rw [i4]; simp⟩
      have hem := memwrite_emits s (a := refAddr w so r) (bs := refBytes tb ti r)
        ⟨hv r (by simp), by rw [refBytes_length]; unfold refSize; split <;> omega⟩
      exact hem.trans i1

/-! ### writes that stay inside given sets, whatever the outcome -/

theorem applyUnits_in {t w lib id} {A : Nat → Prop} {e0 : Nat → Nat} (htl : t.length = 44) (us : List UnitM) (s : State)
    (hv : ∀ u ∈ resolved w lib us, u.1 = 0 ∨ (52 ≤ u.1 ∧ u.1 + 12 < 2 ^ 64 ∧
      Ppc.getBranchOffset s.mem u.1 = some (e0 u.1)))
    (hA : ∀ u ∈ resolved w lib us, u.1 ≠ 0 → ∀ i, cell (e0 u.1) u.1 i → A i) :
    EmitsIn A s (applyUnits t w lib id us s).1 := by
  induction us generalizing s with
  | nil => exact EmitsIn.refl _ _
  | cons u us ih =>
    simp only [applyUnits]
    split
    · exact EmitsIn.refl _ _
    rename_i hold
    split
    · exact EmitsIn.refl _ _
    generalize ({ univ := s.univ, target := w.newSym u.newName, id := id, active := true } : Detour) = d
    generalize ho : w.oldSym (getBasename lib) u.oldName u.oldAddr = old at hold ⊢
    have ha := addDetour_ok s old d
    generalize hs1 : addDetour s old d = s1 at ha ⊢
    have hvo : 52 ≤ old ∧ old + 12 < 2 ^ 64 ∧ Ppc.getBranchOffset s1.mem old = some (e0 old) := by
      have := hv (old, w.newSym u.newName) (by simp [resolved, ho])
      rw [ha.mem]
      simpa [hold] using this
    have hp : EmitsIn A s1 (patchAddr t s1 old (w.newSym u.newName) true).1 :=
      ⟨_, (patchAddr_ready (s := s1) (some (w.newSym u.newName)) htl hvo.2.2 hvo.2.1).1,
        (entryWrites_inSet htl hvo.1).mono (hA (old, w.newSym u.newName) (by simp [resolved, ho]) hold)⟩
    have h2 : (patchAddr t s1 old (w.newSym u.newName) true).1.mem = s1.mem := by simp
    generalize patchAddr t s1 old (w.newSym u.newName) true = p2 at hp h2
    obtain ⟨s2, e2⟩ := p2
    simp only at hp h2 ⊢
    have hp' : EmitsIn A s s2 := hp.of_fields ha.q.symm ha.mem.symm ha.err.symm rfl rfl rfl
    split
    · exact hp'
    · refine hp'.trans (ih s2 (fun x hx => ?_) (fun x hx => hA x ?_))
      · rw [h2, ha.mem]
        refine hv x ?_
        simp only [resolved, List.map_cons, List.mem_cons] at hx ⊢; exact Or.inr hx
      · simp only [resolved, List.map_cons, List.mem_cons] at hx ⊢; exact Or.inr hx

theorem applyRefs_in {w tb ti so} {A : Nat → Prop} (refs : List RefM) (s : State)
    (hv : ∀ r ∈ refs, refAddr w so r < 2 ^ 64)
    (hA : ∀ r ∈ refs, ∀ i, refAddr w so r ≤ i → i < refAddr w so r + refSize r → A i) :
    EmitsIn A s (applyRefs w tb ti so refs s).1 := by
  induction refs generalizing s with
  | nil => exact EmitsIn.refl _ _
  | cons r rs ih =>
    simp only [applyRefs]
    change EmitsIn A s (if r.patchOff = 0 ∧ refAddr w so r = 0 then (s, ENONEWFUNC) else
      applyRefs w tb ti so rs (memwrite s (refAddr w so r) (refBytes tb ti r))).1
    split
    · exact EmitsIn.refl _ _
    · have hem := memwrite_emits s (a := refAddr w so r) (bs := refBytes tb ti r)
        ⟨hv r (by simp), by rw [refBytes_length]; unfold refSize; split <;> omega⟩
      refine EmitsIn.trans (s' := memwrite s (refAddr w so r) (refBytes tb ti r)) ⟨_, hem, ?_⟩
        (ih _ (fun r hr => hv r (by simp [hr])) (fun r hr => hA r (by simp [hr])))
      intro x hx i hi
      simp only [List.mem_singleton] at hx
      subst hx
      simp only [touches, refBytes_length] at hi
      exact hA r (by simp) i hi.1 hi.2

theorem applyAllUnits_in {t} {w : World} {m : Meta} {A : Nat → Prop} {e0 : Nat → Nat} (htl : t.length = 44) (s : State)
    (hv : ∀ u ∈ resolved w m.lib m.units, u.1 = 0 ∨ (52 ≤ u.1 ∧ u.1 + 12 < 2 ^ 64 ∧
      Ppc.getBranchOffset s.mem u.1 = some (e0 u.1)))
    (hA : ∀ u ∈ resolved w m.lib m.units, u.1 ≠ 0 → ∀ i, cell (e0 u.1) u.1 i → A i)
    (hr : ∀ so, w.soBase = some so → ∀ r ∈ m.refs, refAddr w so r < 2 ^ 64 ∧
      ∀ i, refAddr w so r ≤ i → i < refAddr w so r + refSize r → A i) :
    EmitsIn A s (applyAllUnits t w m s).1 := by
  unfold applyAllUnits
  have h1 : EmitsIn A { s with univ := s.univ + 1 }
      (applyUnits t w m.lib m.id m.units { s with univ := s.univ + 1 }).1 :=
    applyUnits_in htl m.units _ hv hA
  generalize applyUnits t w m.lib m.id m.units { s with univ := s.univ + 1 } = p at h1
  obtain ⟨s1, e⟩ := p
  have h1' : EmitsIn A s s1 := h1.of_fields rfl rfl rfl rfl rfl rfl
  simp only
  split
  · exact h1'
  split
  · exact h1'
  split
  · exact h1'
  · rename_i so hso
    split
    · exact h1'
    · exact h1'.trans (applyRefs_in m.refs s1 (fun r h => (hr so hso r h).1) (fun r h => (hr so hso r h).2))

/-! ### reverting -/

/-- One step of `revertRoot`, with the re-enabled target given by `top`. -/
theorem revertRoot_cons (t) (id f) (done rest : List Detour) (d : Detour) (s : State) :
    revertRoot t id f done (d :: rest) s =
      if d.id = id then
        revertRoot t id f (done ++ [{ d with active := false }]) rest
          (patchAddr t s f ((top (done ++ { d with active := false } :: rest)).getD 0)
            (top (done ++ { d with active := false } :: rest)).isSome).1
      else revertRoot t id f (done ++ [d]) rest s := by
  simp only [revertRoot]
  split
  · unfold top
    cases (done ++ { d with active := false } :: rest).find? (fun d => d.active) <;> rfl
  · rfl

theorem revertRoot_fields (t) (id f) (done rest : List Detour) (s : State) :
    (revertRoot t id f done rest s).1.patches = s.patches ∧ (revertRoot t id f done rest s).1.roots = s.roots ∧
    (revertRoot t id f done rest s).1.univ = s.univ ∧ (revertRoot t id f done rest s).1.mem = s.mem ∧
    (revertRoot t id f done rest s).2 = done ++ rest.map (deact id) := by
  induction rest generalizing done s with
  | nil => simp [revertRoot]
  | cons d rest ih =>
    rw [revertRoot_cons]
    split
    · rename_i hd
      obtain ⟨i1, i2, i3, i4, i5⟩ := ih (done ++ [{ d with active := false }])
        (patchAddr t s f ((top (done ++ { d with active := false } :: rest)).getD 0)
            (top (done ++ { d with active := false } :: rest)).isSome).1
      refine ⟨i1.trans (by simp), i2.trans (by simp), i3.trans (by simp), i4.trans (by simp), ?_⟩
      rw [i5]; simp [deact, hd]
    · rename_i hd
      obtain ⟨i1, i2, i3, i4, i5⟩ := ih (done ++ [d]) s
      exact ⟨i1, i2, i3, i4, by rw [i5]; simp [deact, hd]⟩

/-- Reverting on one function, as a change of its entry. -/
theorem revertRoot_ok {t id f off} (htl : t.length = 44) (hf : 52 ≤ f) (hf2 : f + 12 < 2 ^ 64) (done rest : List Detour) (s : State)
    (hp : Ppc.getBranchOffset s.mem f = some off) :
    ∃ ws, Emits s (revertRoot t id f done rest s).1 ws ∧ InSet (cell off f) ws ∧
      ∀ m, Entry t m off f (top (done ++ rest)) → Entry t (perform m ws) off f (top (done ++ rest.map (deact id))) := by
  induction rest generalizing done s with
  | nil => exact ⟨[], Emits.refl _, by simp [InSet], fun m h => by simpa [perform] using h⟩
  | cons d rest ih =>
    rw [revertRoot_cons]
    split
    · rename_i hd
      have h1 := (patchAddr_ready (s := s) (top (done ++ { d with active := false } :: rest)) htl hp hf2).1
      generalize hs1 : (patchAddr t s f ((top (done ++ { d with active := false } :: rest)).getD 0)
            (top (done ++ { d with active := false } :: rest)).isSome).1 = s1 at h1 ⊢
      have hm : s1.mem = s.mem := h1.mem
      obtain ⟨ws, j1, j2, j3⟩ := ih (done ++ [{ d with active := false }]) s1 (by rw [hm]; exact hp)
      refine ⟨_, h1.trans j1, (entryWrites_inSet htl hf).append j2, ?_⟩
      intro m hm
      have h2 := entryWrites_entry (top (done ++ { d with active := false } :: rest)) htl hf hm
      rw [perform_append]
      have := j3 _ (by simpa using h2)
      simpa [deact, hd] using this
    · rename_i hd
      obtain ⟨ws, j1, j2, j3⟩ := ih (done ++ [d]) s hp
      refine ⟨ws, j1, j2, ?_⟩
      intro m hm
      have := j3 m (by simpa using hm)
      simpa [deact, hd] using this

theorem revertRoots_fields (t) (id) (rs : List Root) (s : State) :
    (revertRoots t id rs s).1.patches = s.patches ∧ (revertRoots t id rs s).1.roots = s.roots ∧
    (revertRoots t id rs s).1.univ = s.univ ∧ (revertRoots t id rs s).1.mem = s.mem ∧
    (revertRoots t id rs s).2 = rs.map (fun r => { r with detours := r.detours.map (deact id) }) := by
  induction rs generalizing s with
  | nil => simp [revertRoots]
  | cons r rs ih =>
    simp only [revertRoots]
    obtain ⟨a1, a2, a3, a4, a5⟩ := revertRoot_fields t id r.addr [] r.detours s
    obtain ⟨b1, b2, b3, b4, b5⟩ := ih (revertRoot t id r.addr [] r.detours s).1
    refine ⟨b1.trans a1, b2.trans a2, b3.trans a3, b4.trans a4, ?_⟩
    rw [b5, a5]; simp

theorem revertRoots_ok {t id} {e0 : Nat → Nat} (htl : t.length = 44) (rs : List Root) (s : State)
    (hv : ∀ r ∈ rs, 52 ≤ r.addr ∧ r.addr + 12 < 2 ^ 64)
    (hready : ∀ r ∈ rs, Ppc.getBranchOffset s.mem r.addr = some (e0 r.addr))
    (hnd : (rs.map (fun r => r.addr)).Nodup)
    (hdis : ∀ r ∈ rs, ∀ r' ∈ rs, ∀ i, pad (e0 r.addr) r.addr i → pad (e0 r'.addr) r'.addr i → r.addr = r'.addr) :
    ∃ ws, Emits s (revertRoots t id rs s).1 ws ∧
      InSet (fun i => ∃ r ∈ rs, cell (e0 r.addr) r.addr i) ws ∧
      ∀ m, (∀ r ∈ rs, Entry t m (e0 r.addr) r.addr (top r.detours)) →
        ∀ r ∈ rs, Entry t (perform m ws) (e0 r.addr) r.addr (top (r.detours.map (deact id))) := by
  induction rs generalizing s with
  | nil => exact ⟨[], Emits.refl _, by simp [InSet], by simp⟩
  | cons r rs ih =>
    simp only [revertRoots]
    obtain ⟨hv1, hv2⟩ := hv r (by simp)
    have hp := hready r (by simp)
    obtain ⟨w1, a1, a2, a3⟩ := revertRoot_ok (id := id) htl hv1 hv2 [] r.detours s hp
    have hm := (revertRoot_fields t id r.addr [] r.detours s).2.2.2.1
    simp only [List.map_cons, List.nodup_cons] at hnd
    obtain ⟨w2, b1, b2, b3⟩ := ih (revertRoot t id r.addr [] r.detours s).1
      (fun r hr => hv r (by simp [hr])) (by rw [hm]; exact fun r hr => hready r (by simp [hr])) hnd.2
      (fun r hr r' hr' => hdis r (by simp [hr]) r' (by simp [hr']))
    refine ⟨w1 ++ w2, a1.trans b1, ?_, ?_⟩
    · refine InSet.append (a2.mono fun i hi => ⟨r, by simp, hi⟩) (b2.mono ?_)
      rintro i ⟨x, hx, hi⟩
      exact ⟨x, by simp [hx], hi⟩
    · intro m hent x hx
      rw [perform_append]
      rcases List.mem_cons.mp hx with rfl | hx
      · have h1 := a3 m (by simpa using hent x (by simp))
        refine Entry.congr hv1 ?_ (by simpa using h1)
        intro i hi
        refine (perform_inSet b2 ?_).symm
        rintro ⟨y, hy, hyi⟩
        have := hdis x (by simp) y (by simp [hy]) i hi (cell_pad hyi)
        exact hnd.1 (List.mem_map.mpr ⟨y, hy, this.symm⟩)
      · refine b3 _ ?_ x hx
        intro y hy
        refine Entry.congr (hv y (by simp [hy])).1 ?_ (hent y (by simp [hy]))
        intro i hi
        refine (perform_inSet a2 ?_).symm
        intro hri
        have := hdis r (by simp) y (by simp [hy]) i (cell_pad hri) hi
        exact hnd.1 (List.mem_map.mpr ⟨y, hy, this.symm⟩)

end Verif.Power
