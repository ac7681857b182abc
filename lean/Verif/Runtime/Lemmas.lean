import Verif.Runtime.Spec
import Verif.InsnQueue.Lemmas
import Verif.X86.Lemmas

/-! Helper facts for the runtime model. -/

namespace Verif.Runtime

open Spec
open Verif.InsnQueue (Req Holds touches Queue)
open Verif.InsnQueue.Spec (perform)

abbrev Valid := InsnQueue.Spec.Req.Valid

/-! ### queueing writes -/

/-- `s'` is `s` after requesting the writes `ws`. -/
structure Emits (s s' : State) (ws : List Req) : Prop where
  mem : s'.mem = s.mem
  ver : s'.q.version = s.q.version
  err : s'.err = s.err ∨ s'.err = EINSNQ
  holds : ∀ rs, Holds s.q rs → ∃ ws', ws'.Sublist ws ∧ Holds s'.q (rs ++ ws') ∧
    (s'.err ≠ EINSNQ → ws' = ws)

theorem Emits.refl (s : State) : Emits s s [] :=
  ⟨rfl, rfl, Or.inl rfl, fun _ h => ⟨[], List.Sublist.refl _, by simpa using h, fun _ => rfl⟩⟩

theorem Emits.trans {s s' s'' a b} (h1 : Emits s s' a) (h2 : Emits s' s'' b) :
    Emits s s'' (a ++ b) := by
  refine ⟨h2.mem.trans h1.mem, h2.ver.trans h1.ver, ?_, ?_⟩
  · rcases h2.err with h | h
    · rw [h]; exact h1.err
    · exact Or.inr h
  · intro rs hrs
    obtain ⟨wa, sa, ha, ea⟩ := h1.holds rs hrs
    obtain ⟨wb, sb, hb, eb⟩ := h2.holds _ ha
    refine ⟨wa ++ wb, sa.append sb, by simpa using hb, ?_⟩
    intro he
    rw [eb he, ea]
    intro hc
    rcases h2.err with h | h
    · exact he (h.trans hc)
    · exact he h

/-- Changing what the queue does not depend on. -/
theorem Emits.of_fields {s s1 s' s1' ws} (h : Emits s s' ws) (h1 : s1.q = s.q) (h2 : s1.mem = s.mem)
    (h3 : s1.err = s.err) (h1' : s1'.q = s'.q) (h2' : s1'.mem = s'.mem) (h3' : s1'.err = s'.err) :
    Emits s1 s1' ws := by
  refine ⟨by rw [h2', h2, h.mem], by rw [h1', h1, h.ver], by rw [h3', h3]; exact h.err, ?_⟩
  intro rs hrs
  rw [h1] at hrs
  rw [h1', h3']
  exact h.holds rs hrs

theorem memwrite_emits (s : State) {a bs} (hv : Valid (.write a bs)) :
    Emits s (memwrite s a bs) [.write a bs] := by
  unfold memwrite InsnQueue.insert
  simp only
  cases h : InsnQueue.insert? s.q (.write a bs) with
  | none =>
    refine ⟨rfl, rfl, Or.inr rfl, fun rs hrs => ⟨[], by simp, by simpa using hrs, ?_⟩⟩
    intro hc; exact absurd rfl hc
  | some q =>
    refine ⟨rfl, ?_, Or.inl rfl, fun rs hrs => ⟨_, List.Sublist.refl _, InsnQueue.holds_insert hrs hv h, fun _ => rfl⟩⟩
    unfold InsnQueue.insert? at h
    split at h
    · simp at h
    split at h
    · simp at h
    · injection h with h; rw [← h]

@[simp] theorem memwrite_patches (s : State) (a bs) : (memwrite s a bs).patches = s.patches := rfl
@[simp] theorem memwrite_roots (s : State) (a bs) : (memwrite s a bs).roots = s.roots := rfl
@[simp] theorem memwrite_univ (s : State) (a bs) : (memwrite s a bs).univ = s.univ := rfl
@[simp] theorem memwrite_mem (s : State) (a bs) : (memwrite s a bs).mem = s.mem := rfl

@[simp] theorem patchAddr_patches (s : State) (a b e) : (patchAddr s a b e).1.patches = s.patches := by
  unfold patchAddr; split <;> rfl
@[simp] theorem patchAddr_roots (s : State) (a b e) : (patchAddr s a b e).1.roots = s.roots := by
  unfold patchAddr; split <;> rfl
@[simp] theorem patchAddr_univ (s : State) (a b e) : (patchAddr s a b e).1.univ = s.univ := by
  unfold patchAddr; split <;> rfl
@[simp] theorem patchAddr_mem (s : State) (a b e) : (patchAddr s a b e).1.mem = s.mem := by
  unfold patchAddr; split <;> rfl

theorem perform_append (m : Mem) (a b : List Req) : perform m (a ++ b) = perform (perform m a) b := by
  induction a generalizing m with
  | nil => rfl
  | cons r rs ih => cases r <;> simp [perform, ih]

/-- All writes stay inside `A`. -/
def InSet (A : Nat → Prop) (ws : List Req) : Prop := ∀ w ∈ ws, ∀ i, touches w i → A i

theorem InSet.append {A a b} (h1 : InSet A a) (h2 : InSet A b) : InSet A (a ++ b) := by
  intro w hw i hi
  rcases List.mem_append.mp hw with h | h
  · exact h1 w h i hi
  · exact h2 w h i hi

theorem InSet.mono {A B : Nat → Prop} {ws} (h : InSet A ws) (hab : ∀ i, A i → B i) : InSet B ws :=
  fun w hw i hi => hab i (h w hw i hi)

theorem InSet.sublist {A : Nat → Prop} {ws ws'} (h : InSet A ws) (hs : ws'.Sublist ws) : InSet A ws' :=
  fun w hw => h w (hs.subset hw)

theorem perform_inSet {A : Nat → Prop} {ws i} {m : Mem} (h : InSet A ws) (hi : ¬ A i) :
    perform m ws i = m i :=
  InsnQueue.perform_out fun r hr ht => hi (h r hr i ht)

/-! ### entries -/

/-- The entry of `f`: redirected to `g` or plain. -/
def Entry (m : Mem) (e : Bool) (f : Nat) : Option Nat → Prop
  | none => X86.Plain m e f
  | some g => X86.Redirected m e f g

/-- The bytes of the pad of `f`. -/
def pad (e : Bool) (f i : Nat) : Prop := f - 14 ≤ i ∧ i < f + X86.bias e + 2

theorem inPad_iff (m : Mem) (f i) : inPad m f i ↔ pad (X86.hasEndbr m f) f i := by
  unfold inPad pad; rw [X86.body_eq]

theorem Entry.congr {m m' : Mem} {e f x} (hf : 14 ≤ f) (h : ∀ i, pad e f i → m i = m' i)
    (he : Entry m e f x) : Entry m' e f x := by
  cases x with
  | none => exact X86.plain_congr (fun i h1 h2 => h i ⟨by omega, h2⟩) he
  | some g => exact X86.redirected_congr hf (fun i h1 h2 => h i ⟨h1, h2⟩) he

theorem Entry.ready {m : Mem} {e f x} (hf : 14 ≤ f) (he : Entry m e f x) :
    X86.patchable m f = true ∧ X86.hasEndbr m f = e := by
  cases x with
  | none => exact ⟨X86.plain_patchable he, X86.plain_endbr he⟩
  | some g => exact ⟨X86.redirected_patchable hf he, X86.redirected_endbr hf he⟩

theorem Entry.endbr {m : Mem} {e f x} (hf : 14 ≤ f) (he : Entry m e f x) :
    e = true → m.load f 4 = X86.endbr64 := by
  cases x with
  | none => exact he.1
  | some g => exact (X86.redirected_parts hf he).2.2.1

/-- The write redirecting or disabling `f`. -/
def entryWrite (e : Bool) (f : Nat) : Option Nat → Req
  | none => .write (f + X86.bias e) [0x66, 0x90]
  | some g => .write (f - 14) (X86.prologue e g)

theorem entryWrite_inSet {e f x} (hf : 14 ≤ f) : InSet (pad e f) [entryWrite e f x] := by
  intro w hw i hi
  simp only [List.mem_singleton] at hw
  subst hw
  cases x with
  | none =>
    simp only [entryWrite, touches, List.length_cons, List.length_nil] at hi
    unfold pad; omega
  | some g =>
    simp only [entryWrite, touches, X86.prologue_length] at hi
    unfold pad; omega

theorem entryWrite_entry {m : Mem} {e f x} (y) (hf : 14 ≤ f) (h : Entry m e f x) :
    Entry (perform m [entryWrite e f y]) e f y := by
  cases y with
  | none => exact X86.plain_store (h.endbr hf)
  | some g => exact X86.redirected_store _ _ _ _

theorem entryWrite_valid {e f x} (hf : f + 6 < 2 ^ 64) : Valid (entryWrite e f x) := by
  have hb : X86.bias e ≤ 4 := by cases e <;> simp [X86.bias]
  cases x with
  | none => exact ⟨by omega, by simp⟩
  | some g => refine ⟨by omega, ?_⟩; rw [X86.prologue_length]; omega

/-- `patchAddr` on an entry known to be patchable. -/
theorem patchAddr_ready {s : State} {e f} (x : Option Nat) (hp : X86.patchable s.mem f = true)
    (he : X86.hasEndbr s.mem f = e) (hf : f + 6 < 2 ^ 64) :
    Emits s (patchAddr s f (x.getD 0) x.isSome).1 [entryWrite e f x] ∧
    (patchAddr s f (x.getD 0) x.isSome).2 = 0 := by
  unfold patchAddr
  rw [X86.patchAddr_ok hp he]
  cases x with
  | none => exact ⟨memwrite_emits s (entryWrite_valid (x := none) hf), rfl⟩
  | some g => exact ⟨memwrite_emits s (entryWrite_valid (x := some g) hf), rfl⟩

/-! ### detours -/

/-- Detours of the function at `f`, newest first. -/
def stackOf : List Root → Nat → List Detour
  | [], _ => []
  | r :: rs, f => if r.addr = f then r.detours else stackOf rs f

/-- Target of the newest active detour. -/
def top (ds : List Detour) : Option Nat := (ds.find? (fun d => d.active)).map (fun d => d.target)

theorem push_addrs (old d) (rs : List Root) :
    (addDetour.push old d rs).map (fun r => r.addr) = rs.map (fun r => r.addr) := by
  induction rs with
  | nil => rfl
  | cons r rs ih => unfold addDetour.push; split <;> simp [ih]

theorem stackOf_push {old d} {rs : List Root} (h : old ∈ rs.map (fun r => r.addr)) (f) :
    stackOf (addDetour.push old d rs) f = if f = old then d :: stackOf rs f else stackOf rs f := by
  induction rs with
  | nil => simp at h
  | cons r rs ih =>
    unfold addDetour.push
    split
    · rename_i hr
      simp only [stackOf]
      by_cases hf : f = old
      · subst hf; simp [hr]
      · have : ¬ r.addr = f := by rw [hr]; exact fun h => hf h.symm
        simp [this, hf]
    · rename_i hr
      have h' : old ∈ rs.map (fun r => r.addr) := by
        rcases List.mem_map.mp h with ⟨x, hx, hxo⟩
        rcases List.mem_cons.mp hx with rfl | hx
        · exact absurd hxo hr
        · exact List.mem_map.mpr ⟨x, hx, hxo⟩
      simp only [stackOf, ih h']
      by_cases hrf : r.addr = f
      · have : ¬ f = old := by rw [← hrf]; exact hr
        simp [hrf, this]
      · simp [hrf]

theorem stackOf_none {rs : List Root} {f} (h : f ∉ rs.map (fun r => r.addr)) : stackOf rs f = [] := by
  induction rs with
  | nil => rfl
  | cons r rs ih =>
    simp only [List.map_cons, List.mem_cons, not_or] at h
    simp only [stackOf]
    rw [if_neg (fun hh => h.1 hh.symm), ih h.2]

structure AddDetour (s s' : State) (old : Nat) (d : Detour) : Prop where
  stack : ∀ f, stackOf s'.roots f = if f = old then d :: stackOf s.roots f else stackOf s.roots f
  addrs : ∀ a, a ∈ s'.roots.map (fun r => r.addr) ↔ a = old ∨ a ∈ s.roots.map (fun r => r.addr)
  nodup : (s.roots.map (fun r => r.addr)).Nodup → (s'.roots.map (fun r => r.addr)).Nodup
  err : s'.err = s.err
  patches : s'.patches = s.patches
  univ : s'.univ = s.univ
  q : s'.q = s.q
  mem : s'.mem = s.mem

theorem addDetour_ok (s : State) (old d) : AddDetour s (addDetour s old d) old d := by
  unfold addDetour
  by_cases h : s.roots.any (fun r => r.addr == old) = true
  · have hm : old ∈ s.roots.map (fun r => r.addr) := by
      simp only [List.any_eq_true, beq_iff_eq] at h
      obtain ⟨r, hr, e⟩ := h
      exact List.mem_map.mpr ⟨r, hr, e⟩
    simp only [h, if_true]
    refine ⟨stackOf_push hm, ?_, ?_, rfl, rfl, rfl, rfl, rfl⟩
    · intro a
      simp only [push_addrs]
      constructor
      · exact Or.inr
      · rintro (rfl | h)
        · exact hm
        · exact h
    · simp only [push_addrs]; exact id
  · have hm : old ∉ s.roots.map (fun r => r.addr) := by
      simp only [List.any_eq_true, beq_iff_eq] at h
      intro hc
      obtain ⟨r, hr, e⟩ := List.mem_map.mp hc
      exact h ⟨r, hr, e⟩
    rw [if_neg h]
    simp only [addDetour.push, if_true]
    refine ⟨?_, ?_, ?_, rfl, rfl, rfl, rfl, rfl⟩
    · intro f
      simp only [stackOf]
      by_cases hf : f = old
      · subst hf; simp [stackOf_none hm]
      · have : ¬ old = f := fun h => hf h.symm
        simp [this, hf]
    · intro a; simp
    · intro hn; simp only [List.map_cons, List.nodup_cons]; exact ⟨hm, hn⟩

/-! ### applying the units of a patch -/

/-- The resolved units. -/
def resolved (w : World) (lib : Str) (us : List UnitM) : List (Nat × Nat) :=
  us.map fun u => (w.oldSym (getBasename lib) u.oldName u.oldAddr, w.newSym u.newName)

theorem resolveUnits_some {w lib us res} (h : resolveUnits w lib us = some res) :
    res = resolved w lib us ∧ (∀ u ∈ resolved w lib us, u.1 ≠ 0) := by
  induction us generalizing res with
  | nil => simp [resolveUnits] at h; subst h; simp [resolved]
  | cons u us ih =>
    simp only [resolveUnits] at h
    split at h
    · simp at h
    rename_i h1
    split at h
    · simp at h
    cases hr : resolveUnits w lib us with
    | none => simp [hr] at h
    | some r =>
      simp [hr] at h
      obtain ⟨e, hn⟩ := ih hr
      subst h
      refine ⟨by simp [resolved] at e ⊢; exact e, ?_⟩
      intro x hx
      simp only [resolved, List.map_cons, List.mem_cons] at hx
      rcases hx with rfl | hx
      · exact h1
      · exact hn x hx

/-- The unit loop when it succeeds on entries that are ready. -/
theorem applyUnits_ok {w lib id} {F : Nat → Prop} {e0 : Nat → Bool} (hF : ∀ f, F f → 14 ≤ f ∧ f + 6 < 2 ^ 64)
    (us : List UnitM) (s s' : State) (h : applyUnits w lib id us s = (s', 0))
    (hready : ∀ f, F f → X86.patchable s.mem f = true ∧ X86.hasEndbr s.mem f = e0 f)
    (hfit : ∀ u ∈ resolved w lib us, u.1 = 0 ∨ F u.1) :
    Emits s s' ((resolved w lib us).map fun u => entryWrite (e0 u.1) u.1 (some u.2)) ∧
    s'.patches = s.patches ∧ s'.univ = s.univ ∧
    (∀ f, stackOf s'.roots f = (((resolved w lib us).filter (fun u => u.1 = f)).map
        (fun u => { univ := s.univ, target := u.2, id := id, active := true : Detour })).reverse
        ++ stackOf s.roots f) ∧
    (∀ a, a ∈ s'.roots.map (fun r => r.addr) ↔
      a ∈ (resolved w lib us).map (fun u => u.1) ∨ a ∈ s.roots.map (fun r => r.addr)) ∧
    ((s.roots.map (fun r => r.addr)).Nodup → (s'.roots.map (fun r => r.addr)).Nodup) ∧
    (∀ u ∈ resolved w lib us, F u.1) := by
  induction us generalizing s with
  | nil =>
    simp only [applyUnits, Prod.mk.injEq, and_true] at h
    subst h
    exact ⟨Emits.refl _, rfl, rfl, by simp [resolved], by simp [resolved], fun hn => hn, by simp [resolved]⟩
  | cons u us ih =>
    simp only [applyUnits] at h
    split at h
    · simp [ENOOLDFUNC] at h
    rename_i hold
    split at h
    · simp [ENONEWFUNC] at h
    rename_i hnew
    generalize hd : ({ univ := s.univ, target := w.newSym u.newName, id := id, active := true } : Detour) = d at h
    generalize ho : w.oldSym (getBasename lib) u.oldName u.oldAddr = old at h hold
    have hFo : F old := by
      have := hfit (old, w.newSym u.newName) (by simp [resolved, ho])
      simpa [hold] using this
    have ha := addDetour_ok s old d
    generalize hs1 : addDetour s old d = s1 at h ha
    have hr1 : X86.patchable s1.mem old = true ∧ X86.hasEndbr s1.mem old = e0 old := by
      rw [ha.mem]; exact hready old hFo
    have hp := patchAddr_ready (s := s1) (some (w.newSym u.newName)) hr1.1 hr1.2 (hF old hFo).2
    simp only [Option.getD_some, Option.isSome_some] at hp
    have h2 : (patchAddr s1 old (w.newSym u.newName) true).1.mem = s1.mem := by simp
    have h3 : (patchAddr s1 old (w.newSym u.newName) true).1.patches = s1.patches := by simp
    have h4 : (patchAddr s1 old (w.newSym u.newName) true).1.univ = s1.univ := by simp
    have h5 : (patchAddr s1 old (w.newSym u.newName) true).1.roots = s1.roots := by simp
    generalize hs2 : patchAddr s1 old (w.newSym u.newName) true = p2 at h hp h2 h3 h4 h5
    obtain ⟨s2, e2⟩ := p2
    obtain ⟨hem, rfl⟩ := hp
    simp only at h h2 h3 h4 h5 hem
    rw [if_neg (Nat.lt_irrefl 0)] at h
    obtain ⟨i1, i2, i3, i4, i5, i6, i7⟩ := ih s2 h (by rw [h2, ha.mem]; exact hready)
      (fun x hx => hfit x (by simp only [resolved, List.map_cons, List.mem_cons] at hx ⊢; exact Or.inr hx))
    have hres : resolved w lib (u :: us) = (old, w.newSym u.newName) :: resolved w lib us := by
      simp [resolved, ho]
    rw [hres]
    refine ⟨?_, by rw [i2, h3, ha.patches], by rw [i3, h4, ha.univ], ?_, ?_, ?_, ?_⟩
    · have hem' : Emits s s2 [entryWrite (e0 old) old (some (w.newSym u.newName))] :=
        hem.of_fields ha.q.symm ha.mem.symm ha.err.symm rfl rfl rfl
      exact hem'.trans i1
    · intro f
      rw [i4 f, h4, ha.univ, h5, ha.stack f]
      by_cases hf : f = old
      · subst hf; simp [hd]
      · have : ¬ old = f := fun h => hf h.symm
        simp [hf, this]
    · intro a
      rw [i5 a, h5, ha.addrs a]
      simp only [List.map_cons, List.mem_cons]
      constructor
      · rintro (h | h | h) <;> simp [h]
      · rintro ((h | h) | h) <;> simp [h]
    · intro hn
      apply i6
      rw [h5]
      exact ha.nodup hn
    · intro x hx
      rcases List.mem_cons.mp hx with rfl | hx
      · exact hFo
      · exact i7 x hx

/-- What is stored for a reference. -/
def refBytes (targetBase tlsIdx : Nat) (r : RefM) : List UInt8 :=
  if r.tls then le 8 tlsIdx ++ le 8 r.targetOff else le 8 (targetBase + r.targetOff)

theorem refBytes_length (tb ti r) : (refBytes tb ti r).length = refSize r := by
  unfold refBytes refSize; split <;> simp

theorem applyRefs_ok {w tb ti so} (refs : List RefM) (s s' : State)
    (h : applyRefs w tb ti so refs s = (s', 0)) (hv : ∀ r ∈ refs, refAddr w so r < 2 ^ 64) :
    Emits s s' (refs.map fun r => .write (refAddr w so r) (refBytes tb ti r)) ∧
    s'.patches = s.patches ∧ s'.univ = s.univ ∧ s'.roots = s.roots := by
  induction refs generalizing s with
  | nil =>
    simp only [applyRefs, Prod.mk.injEq, and_true] at h
    subst h
    exact ⟨Emits.refl _, rfl, rfl, rfl⟩
  | cons r rs ih =>
    simp only [applyRefs] at h
    change (if r.patchOff = 0 ∧ refAddr w so r = 0 then (s, ENONEWFUNC) else
      applyRefs w tb ti so rs (memwrite s (refAddr w so r) (refBytes tb ti r))) = _ at h
    split at h
    · simp [ENONEWFUNC] at h
    · obtain ⟨i1, i2, i3, i4⟩ := ih _ h (fun r hr => hv r (by simp [hr]))
      refine ⟨?_, by rw [i2]; simp, by rw [i3]; simp, by rw [i4]; simp⟩
      have hem := memwrite_emits s (a := refAddr w so r) (bs := refBytes tb ti r)
        ⟨hv r (by simp), by rw [refBytes_length]; unfold refSize; split <;> omega⟩
      exact hem.trans i1

/-! ### writes that stay inside given sets, whatever the outcome -/

/-- `s'` is `s` after requesting some writes inside `A`. -/
def EmitsIn (A : Nat → Prop) (s s' : State) : Prop := ∃ ws, Emits s s' ws ∧ InSet A ws

theorem EmitsIn.refl (A) (s : State) : EmitsIn A s s := ⟨[], Emits.refl s, by simp [InSet]⟩

theorem EmitsIn.trans {A s s' s''} (h1 : EmitsIn A s s') (h2 : EmitsIn A s' s'') : EmitsIn A s s'' := by
  obtain ⟨a, h1, i1⟩ := h1
  obtain ⟨b, h2, i2⟩ := h2
  exact ⟨a ++ b, h1.trans h2, i1.append i2⟩

theorem EmitsIn.mono {A B : Nat → Prop} {s s'} (h : EmitsIn A s s') (hab : ∀ i, A i → B i) :
    EmitsIn B s s' := by
  obtain ⟨a, h, i⟩ := h
  exact ⟨a, h, i.mono hab⟩

theorem EmitsIn.of_fields {A s s1 s' s1'} (h : EmitsIn A s s') (h1 : s1.q = s.q) (h2 : s1.mem = s.mem)
    (h3 : s1.err = s.err) (h1' : s1'.q = s'.q) (h2' : s1'.mem = s'.mem) (h3' : s1'.err = s'.err) :
    EmitsIn A s1 s1' := by
  obtain ⟨a, h, i⟩ := h
  exact ⟨a, h.of_fields h1 h2 h3 h1' h2' h3', i⟩

/-- Whatever `patchAddr` does, it only writes to the pad. -/
theorem patchAddr_in (s : State) (f g en) (hf : 14 ≤ f) (hf2 : f + 6 < 2 ^ 64) :
    EmitsIn (inPad s.mem f) s (patchAddr s f g en).1 := by
  unfold patchAddr
  cases h : X86.patchAddr s.mem f g en with
  | error e => exact EmitsIn.refl _ _
  | ok p =>
    have hp : X86.patchable s.mem f = true := by
      unfold X86.patchAddr at h
      cases hp : X86.patchable s.mem f <;> simp_all
    rw [X86.patchAddr_ok hp rfl] at h
    cases en with
    | true =>
      simp only [if_true] at h
      injection h with h
      subst h
      refine ⟨_, memwrite_emits s (entryWrite_valid (x := some g) hf2), ?_⟩
      exact (entryWrite_inSet (x := some g) hf).mono fun i hi => (inPad_iff _ _ _).mpr hi
    | false =>
      simp only [Bool.false_eq_true, if_false] at h
      injection h with h
      subst h
      refine ⟨_, memwrite_emits s (entryWrite_valid (x := none) hf2), ?_⟩
      exact (entryWrite_inSet (x := none) hf).mono fun i hi => (inPad_iff _ _ _).mpr hi

theorem applyUnits_in {w lib id} {A : Nat → Prop} (us : List UnitM) (s : State)
    (hv : ∀ u ∈ resolved w lib us, u.1 = 0 ∨ (14 ≤ u.1 ∧ u.1 + 6 < 2 ^ 64))
    (hA : ∀ u ∈ resolved w lib us, u.1 ≠ 0 → ∀ i, inPad s.mem u.1 i → A i) :
    EmitsIn A s (applyUnits w lib id us s).1 := by
  induction us generalizing s with
  | nil => exact EmitsIn.refl _ _
  | cons u us ih =>
    simp only [applyUnits]
    split
    · exact EmitsIn.refl _ _
    rename_i hold
    split
    · exact EmitsIn.refl _ _
    generalize ({ univ := s.univ, target := w.newSym u.newName, id := id, active := true } : Detour) = d
    generalize ho : w.oldSym (getBasename lib) u.oldName u.oldAddr = old at hold ⊢
    have ha := addDetour_ok s old d
    generalize hs1 : addDetour s old d = s1 at ha ⊢
    have hvo : 14 ≤ old ∧ old + 6 < 2 ^ 64 := by
      have := hv (old, w.newSym u.newName) (by simp [resolved, ho])
      simpa [hold] using this
    have hp : EmitsIn A s1 (patchAddr s1 old (w.newSym u.newName) true).1 :=
      (patchAddr_in s1 old (w.newSym u.newName) true hvo.1 hvo.2).mono (by
        rw [ha.mem]; intro i hi
        exact hA (old, w.newSym u.newName) (by simp [resolved, ho]) hold i hi)
    have h2 : (patchAddr s1 old (w.newSym u.newName) true).1.mem = s1.mem := by simp
    generalize patchAddr s1 old (w.newSym u.newName) true = p2 at hp h2
    obtain ⟨s2, e2⟩ := p2
    simp only at hp h2 ⊢
    have hp' : EmitsIn A s s2 := hp.of_fields ha.q.symm ha.mem.symm ha.err.symm rfl rfl rfl
    split
    · exact hp'
    · refine hp'.trans (ih s2 (fun x hx => hv x ?_) (fun x hx => ?_))
      · simp only [resolved, List.map_cons, List.mem_cons] at hx ⊢; exact Or.inr hx
      · rw [h2, ha.mem]
        refine hA x ?_
        simp only [resolved, List.map_cons, List.mem_cons] at hx ⊢; exact Or.inr hx

theorem applyRefs_in {w tb ti so} {A : Nat → Prop} (refs : List RefM) (s : State)
    (hv : ∀ r ∈ refs, refAddr w so r < 2 ^ 64)
    (hA : ∀ r ∈ refs, ∀ i, refAddr w so r ≤ i → i < refAddr w so r + refSize r → A i) :
    EmitsIn A s (applyRefs w tb ti so refs s).1 := by
  induction refs generalizing s with
  | nil => exact EmitsIn.refl _ _
  | cons r rs ih =>
    simp only [applyRefs]
    change EmitsIn A s (if r.patchOff = 0 ∧ refAddr w so r = 0 then (s, ENONEWFUNC) else
      applyRefs w tb ti so rs (memwrite s (refAddr w so r) (refBytes tb ti r))).1
    split
    · exact EmitsIn.refl _ _
    · have hem := memwrite_emits s (a := refAddr w so r) (bs := refBytes tb ti r)
        ⟨hv r (by simp), by rw [refBytes_length]; unfold refSize; split <;> omega⟩
      refine EmitsIn.trans (s' := memwrite s (refAddr w so r) (refBytes tb ti r)) ⟨_, hem, ?_⟩
        (ih _ (fun r hr => hv r (by simp [hr])) (fun r hr => hA r (by simp [hr])))
      intro x hx i hi
      simp only [List.mem_singleton] at hx
      subst hx
      simp only [touches, refBytes_length] at hi
      exact hA r (by simp) i hi.1 hi.2

/-- The bytes a patch may write to: pads of the functions it replaces and its reference slots. -/
def metaSet (w : World) (m : Meta) (mem : Mem) (i : Nat) : Prop :=
  (∃ u ∈ resolved w m.lib m.units, u.1 ≠ 0 ∧ inPad mem u.1 i) ∨
  ∃ so, w.soBase = some so ∧ ∃ r ∈ m.refs, refAddr w so r ≤ i ∧ i < refAddr w so r + refSize r

theorem applyAllUnits_in {w : World} {m : Meta} (s : State)
    (hv : ∀ u ∈ resolved w m.lib m.units, u.1 = 0 ∨ (14 ≤ u.1 ∧ u.1 + 6 < 2 ^ 64))
    (hr : ∀ so, w.soBase = some so → ∀ r ∈ m.refs, refAddr w so r < 2 ^ 64) :
    EmitsIn (metaSet w m s.mem) s (applyAllUnits w m s).1 := by
  unfold applyAllUnits
  have h1 : EmitsIn (metaSet w m s.mem) { s with univ := s.univ + 1 }
      (applyUnits w m.lib m.id m.units { s with univ := s.univ + 1 }).1 :=
    applyUnits_in m.units _ hv (fun u hu h0 i hi => Or.inl ⟨u, hu, h0, hi⟩)
  generalize applyUnits w m.lib m.id m.units { s with univ := s.univ + 1 } = p at h1
  obtain ⟨s1, e⟩ := p
  have h1' : EmitsIn (metaSet w m s.mem) s s1 := h1.of_fields rfl rfl rfl rfl rfl rfl
  simp only
  split
  · exact h1'
  split
  · exact h1'
  split
  · exact h1'
  · rename_i so hso
    split
    · exact h1'
    · refine h1'.trans (applyRefs_in m.refs s1 (hr so hso) ?_)
      intro r hr' i a b
      exact Or.inr ⟨so, hso, r, hr', a, b⟩

/-! ### reverting -/

/-- A detour of patch `id` is deactivated. -/
def deact (id : Id) (d : Detour) : Detour := if d.id = id then { d with active := false } else d

/-- One step of `revertRoot`, with the re-enabled target given by `top`. -/
theorem revertRoot_cons (id f) (done rest : List Detour) (d : Detour) (s : State) :
    revertRoot id f done (d :: rest) s =
      if d.id = id then
        revertRoot id f (done ++ [{ d with active := false }]) rest
          (patchAddr s f ((top (done ++ { d with active := false } :: rest)).getD 0)
            (top (done ++ { d with active := false } :: rest)).isSome).1
      else revertRoot id f (done ++ [d]) rest s := by
  simp only [revertRoot]
  split
  · unfold top
    cases (done ++ { d with active := false } :: rest).find? (fun d => d.active) <;> rfl
  · rfl

theorem revertRoot_fields (id f) (done rest : List Detour) (s : State) :
    (revertRoot id f done rest s).1.patches = s.patches ∧ (revertRoot id f done rest s).1.roots = s.roots ∧
    (revertRoot id f done rest s).1.univ = s.univ ∧ (revertRoot id f done rest s).1.mem = s.mem ∧
    (revertRoot id f done rest s).2 = done ++ rest.map (deact id) := by
  induction rest generalizing done s with
  | nil => simp [revertRoot]
  | cons d rest ih =>
    rw [revertRoot_cons]
    split
    · rename_i hd
      obtain ⟨i1, i2, i3, i4, i5⟩ := ih (done ++ [{ d with active := false }])
        (patchAddr s f ((top (done ++ { d with active := false } :: rest)).getD 0)
            (top (done ++ { d with active := false } :: rest)).isSome).1
      refine ⟨i1.trans (by simp), i2.trans (by simp), i3.trans (by simp), i4.trans (by simp), ?_⟩
      rw [i5]; simp [deact, hd]
    · rename_i hd
      obtain ⟨i1, i2, i3, i4, i5⟩ := ih (done ++ [d]) s
      exact ⟨i1, i2, i3, i4, by rw [i5]; simp [deact, hd]⟩

theorem revertRoot_in {id f} (done rest : List Detour) (s : State) (hf : 14 ≤ f)
    (hf2 : f + 6 < 2 ^ 64) : EmitsIn (inPad s.mem f) s (revertRoot id f done rest s).1 := by
  induction rest generalizing done s with
  | nil => exact EmitsIn.refl _ _
  | cons d rest ih =>
    rw [revertRoot_cons]
    split
    · generalize top (done ++ { d with active := false } :: rest) = x
      have h1 := patchAddr_in s f (x.getD 0) x.isSome hf hf2
      have hm : (patchAddr s f (x.getD 0) x.isSome).1.mem = s.mem := by simp
      have := ih (done ++ [{ d with active := false }]) (patchAddr s f (x.getD 0) x.isSome).1
      rw [hm] at this
      exact h1.trans this
    · exact ih _ _

/-- Reverting on one function, as a change of its entry. -/
theorem revertRoot_ok {id f e} (hf : 14 ≤ f) (hf2 : f + 6 < 2 ^ 64) (done rest : List Detour) (s : State)
    (hp : X86.patchable s.mem f = true) (he : X86.hasEndbr s.mem f = e) :
    ∃ ws, Emits s (revertRoot id f done rest s).1 ws ∧ InSet (pad e f) ws ∧
      ∀ m, Entry m e f (top (done ++ rest)) → Entry (perform m ws) e f (top (done ++ rest.map (deact id))) := by
  induction rest generalizing done s with
  | nil => exact ⟨[], Emits.refl _, by simp [InSet], fun m h => by simpa [perform] using h⟩
  | cons d rest ih =>
    rw [revertRoot_cons]
    split
    · rename_i hd
      have h1 := (patchAddr_ready (s := s) (top (done ++ { d with active := false } :: rest)) hp he hf2).1
      generalize hs1 : (patchAddr s f ((top (done ++ { d with active := false } :: rest)).getD 0)
            (top (done ++ { d with active := false } :: rest)).isSome).1 = s1 at h1 ⊢
      have hm : s1.mem = s.mem := h1.mem
      obtain ⟨ws, j1, j2, j3⟩ := ih (done ++ [{ d with active := false }]) s1 (by rw [hm]; exact hp)
        (by rw [hm]; exact he)
      refine ⟨_, h1.trans j1, (entryWrite_inSet hf).append j2, ?_⟩
      intro m hm
      have h2 := entryWrite_entry (top (done ++ { d with active := false } :: rest)) hf hm
      rw [perform_append]
      have := j3 _ (by simpa using h2)
      simpa [deact, hd] using this
    · rename_i hd
      obtain ⟨ws, j1, j2, j3⟩ := ih (done ++ [d]) s hp he
      refine ⟨ws, j1, j2, ?_⟩
      intro m hm
      have := j3 m (by simpa using hm)
      simpa [deact, hd] using this

theorem revertRoots_fields (id) (rs : List Root) (s : State) :
    (revertRoots id rs s).1.patches = s.patches ∧ (revertRoots id rs s).1.roots = s.roots ∧
    (revertRoots id rs s).1.univ = s.univ ∧ (revertRoots id rs s).1.mem = s.mem ∧
    (revertRoots id rs s).2 = rs.map (fun r => { r with detours := r.detours.map (deact id) }) := by
  induction rs generalizing s with
  | nil => simp [revertRoots]
  | cons r rs ih =>
    simp only [revertRoots]
    obtain ⟨a1, a2, a3, a4, a5⟩ := revertRoot_fields id r.addr [] r.detours s
    obtain ⟨b1, b2, b3, b4, b5⟩ := ih (revertRoot id r.addr [] r.detours s).1
    refine ⟨b1.trans a1, b2.trans a2, b3.trans a3, b4.trans a4, ?_⟩
    rw [b5, a5]; simp

theorem revertRoots_in {id} {A : Nat → Prop} (rs : List Root) (s : State)
    (hv : ∀ r ∈ rs, 14 ≤ r.addr ∧ r.addr + 6 < 2 ^ 64) (hA : ∀ r ∈ rs, ∀ i, inPad s.mem r.addr i → A i) :
    EmitsIn A s (revertRoots id rs s).1 := by
  induction rs generalizing s with
  | nil => exact EmitsIn.refl _ _
  | cons r rs ih =>
    simp only [revertRoots]
    have hv' := hv r (by simp)
    have h1 := (revertRoot_in (id := id) [] r.detours s hv'.1 hv'.2).mono (hA r (by simp))
    have hm := (revertRoot_fields id r.addr [] r.detours s).2.2.2.1
    refine h1.trans (ih _ (fun r hr => hv r (by simp [hr])) ?_)
    rw [hm]
    exact fun r hr => hA r (by simp [hr])

theorem revertRoots_ok {id} {e0 : Nat → Bool} (rs : List Root) (s : State)
    (hv : ∀ r ∈ rs, 14 ≤ r.addr ∧ r.addr + 6 < 2 ^ 64)
    (hready : ∀ r ∈ rs, X86.patchable s.mem r.addr = true ∧ X86.hasEndbr s.mem r.addr = e0 r.addr)
    (hnd : (rs.map (fun r => r.addr)).Nodup)
    (hdis : ∀ r ∈ rs, ∀ r' ∈ rs, ∀ i, pad (e0 r.addr) r.addr i → pad (e0 r'.addr) r'.addr i → r.addr = r'.addr) :
    ∃ ws, Emits s (revertRoots id rs s).1 ws ∧
      InSet (fun i => ∃ r ∈ rs, pad (e0 r.addr) r.addr i) ws ∧
      ∀ m, (∀ r ∈ rs, Entry m (e0 r.addr) r.addr (top r.detours)) →
        ∀ r ∈ rs, Entry (perform m ws) (e0 r.addr) r.addr (top (r.detours.map (deact id))) := by
  induction rs generalizing s with
  | nil => exact ⟨[], Emits.refl _, by simp [InSet], by simp⟩
  | cons r rs ih =>
    simp only [revertRoots]
    obtain ⟨hv1, hv2⟩ := hv r (by simp)
    obtain ⟨hp, he⟩ := hready r (by simp)
    obtain ⟨w1, a1, a2, a3⟩ := revertRoot_ok (id := id) hv1 hv2 [] r.detours s hp he
    have hm := (revertRoot_fields id r.addr [] r.detours s).2.2.2.1
    simp only [List.map_cons, List.nodup_cons] at hnd
    obtain ⟨w2, b1, b2, b3⟩ := ih (revertRoot id r.addr [] r.detours s).1
      (fun r hr => hv r (by simp [hr])) (by rw [hm]; exact fun r hr => hready r (by simp [hr])) hnd.2
      (fun r hr r' hr' => hdis r (by simp [hr]) r' (by simp [hr']))
    refine ⟨w1 ++ w2, a1.trans b1, ?_, ?_⟩
    · refine InSet.append (a2.mono fun i hi => ⟨r, by simp, hi⟩) (b2.mono ?_)
      rintro i ⟨x, hx, hi⟩
      exact ⟨x, by simp [hx], hi⟩
    · intro m hent x hx
      rw [perform_append]
      rcases List.mem_cons.mp hx with rfl | hx
      · have h1 := a3 m (by simpa using hent x (by simp))
        refine Entry.congr hv1 ?_ (by simpa using h1)
        intro i hi
        refine (perform_inSet b2 ?_).symm
        rintro ⟨y, hy, hyi⟩
        have := hdis x (by simp) y (by simp [hy]) i hi hyi
        exact hnd.1 (List.mem_map.mpr ⟨y, hy, this.symm⟩)
      · refine b3 _ ?_ x hx
        intro y hy
        refine Entry.congr (hv y (by simp [hy])).1 ?_ (hent y (by simp [hy]))
        intro i hi
        refine (perform_inSet a2 ?_).symm
        intro hri
        have := hdis r (by simp) y (by simp [hy]) i hri hi
        exact hnd.1 (List.mem_map.mpr ⟨y, hy, this.symm⟩)

/-! ### the tool -/

theorem settle_holds {s : State} {rs} (h : Holds s.q rs) (hv : s.q.version ≤ InsnQueue.currVersion) :
    settle s = { s with mem := perform s.mem rs, q := { s.q with num := 0, size := 0 } } := by
  unfold settle
  rw [InsnQueue.toolRun_holds h hv]
  simp only
  have := InsnQueue.apply_events ⟨s.mem, s.q⟩ rs
  unfold InsnQueue.applyEffects at this ⊢
  rw [List.foldl_append, this]
  rfl

theorem holds_empty {q : Queue} (h1 : q.num = 0) (h2 : q.size = 0) : Holds q [] :=
  ⟨h1, h2, by rw [h2]; exact Nat.zero_le _, by simp, trivial⟩

end Verif.Runtime
