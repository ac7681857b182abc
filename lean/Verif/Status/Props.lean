import Verif.Status.Spec
import Verif.Inspect.Lemmas
import Verif.Text.Props

namespace Verif.Status

open Spec
open Verif.Inspect.Spec (Readable Num HasStr)
open Verif.Inspect (Proc Bytes readMem readMem_ok readable_sub load_drop_take num_load wrap_lt)

theorem isBase_iff (path base : Str) : IsBase path base ↔ getBasename path = base := by
  constructor
  · rintro ⟨h1, rfl | ⟨dir, rfl⟩⟩
    · exact Text.C40_basename_unique [] path h1 (Or.inl rfl)
    · have := Text.C40_basename_unique (dir ++ [47]) base h1 (Or.inr ⟨dir, rfl⟩)
      simpa using this
  · rintro rfl
    obtain ⟨dir, h1, h2, h3⟩ := Text.C40_basename path
    refine ⟨h2, ?_⟩
    rcases h3 with rfl | ⟨d, rfl⟩
    · exact Or.inl h1
    · refine Or.inr ⟨d, ?_⟩
      simpa using h1

theorem triplet_031 : Text.triplet 0 3 1 = 1 + 3 * 2 ^ 16 := by decide

/-! ### Reading the list -/

theorem fetch_ok {p : Proc} {a : Nat} {s : Str} (h0 : a ≠ 0) (h : HasStr p a s) {fuel : Nat} (hf : s.length / 8 < fuel) : fetch p a fuel = some (.str s) := by
  unfold fetch
  obtain ⟨buf, h1, h2⟩ := Ptrace.C10_read_string_partial h.1 (fun i hi => h.2 i (by omega)) fuel hf
  rw [if_neg h0, h1]
  simp only [h2]

/-- What the tool has of a live patch. -/
def copy (version : Nat) (x : Patch) : Applied := ⟨x.id, .str x.lib, .str x.container, if Text.triplet 0 3 1 ≤ version then x.time else 0⟩

theorem readApplied_step {p : Proc} {version a fuel : Nat} {x : Patch} {lib container next : Nat} {l c : Ptr} {rest : List Applied} (h0 : a ≠ 0)
    (hr : Readable p a (if Text.triplet 0 3 1 ≤ version then 80 else 72)) (hid : p.mem.load a 32 = x.id)
    (hl : Num p (a + 32) 8 lib) (hc : Num p (a + 40) 8 container) (hn : Num p (a + 56) 8 next) (ht : Text.triplet 0 3 1 ≤ version → Num p (a + 72) 8 x.time)
    (fl : fetch p lib fuel = some l) (fc : fetch p container fuel = some c) (fr : readApplied p version fuel next = some rest) :
    readApplied p version (fuel + 1) a = some (⟨x.id, l, c, if Text.triplet 0 3 1 ≤ version then x.time else 0⟩ :: rest) := by
  have hs : patchSize version = if Text.triplet 0 3 1 ≤ version then 80 else 72 := by
    unfold patchSize
    rw [triplet_031]
    split <;> split <;> omega
  rw [readApplied, if_neg h0, hs, readMem_ok hr]
  have h72 : 72 ≤ (if Text.triplet 0 3 1 ≤ version then 80 else 72) := by split <;> omega
  simp only
  rw [num_load hl (by omega), num_load hc (by omega), num_load hn (by omega), fl, fc, fr]
  simp only
  congr 2
  congr 1
  · have := load_drop_take p.mem a (off := 0) (n := 32) (k := if Text.triplet 0 3 1 ≤ version then 80 else 72) (by omega)
    simpa [hid] using this
  · by_cases hv : Text.triplet 0 3 1 ≤ version
    · rw [if_pos hv, if_pos hv]
      exact num_load (ht hv) (by omega)
    · rw [if_neg hv, if_neg hv]
      unfold Inspect.num
      have : (p.mem.load a 72).drop 72 = [] := by
        apply List.drop_eq_nil_of_le
        simp
      rw [this]
      rfl

theorem readApplied_ok {p : Proc} {version a : Nat} {ps : List Patch} (h : Patches p version a ps) :
    ∃ N, ∀ fuel, N ≤ fuel → readApplied p version fuel a = some (ps.map (copy version)) := by
  induction h with
  | nil => exact ⟨1, fun fuel hf => by obtain ⟨k, rfl⟩ : ∃ k, fuel = k + 1 := ⟨fuel - 1, by omega⟩; simp [readApplied]⟩
  | @cons a x next xs lib container h0 hr hid hl0 hl hls hc0 hc hcs hn ht _ ih =>
    obtain ⟨N, hN⟩ := ih
    refine ⟨N + x.lib.length + x.container.length + 2, fun fuel hf => ?_⟩
    obtain ⟨k, rfl⟩ : ∃ k, fuel = k + 1 := ⟨fuel - 1, by omega⟩
    rw [readApplied_step h0 hr hid hl hc hn ht (fetch_ok hl0 hls (by omega)) (fetch_ok hc0 hcs (by omega)) (hN k (by omega))]
    rfl

theorem readState_ok {p : Proc} {l : Libpulp} {ps : List Patch} (h : State p l ps) :
    ∃ N, ∀ fuel, N ≤ fuel → readState p l fuel = some (ps.map (copy l.version)) := by
  obtain ⟨h0, hr, a, ha, hp⟩ := h
  obtain ⟨N, hN⟩ := readApplied_ok hp
  refine ⟨N, fun fuel hf => ?_⟩
  unfold readState
  rw [if_neg h0, readMem_ok hr]
  simp only
  rw [num_load ha (by omega), hN fuel hf]

/-! ### Libraries -/

theorem hasLivepatch_ok (version : Nat) (ps : List Patch) (o : Object) :
    ∃ b, hasLivepatch o.filename (ps.map (copy version)) = some b ∧ (b = true ↔ Patched ps o) := by
  induction ps with
  | nil => exact ⟨false, rfl, by simp [Patched]⟩
  | cons x xs ih =>
    obtain ⟨b, h1, h2⟩ := ih
    by_cases hx : getBasename o.filename = x.lib
    · exact ⟨true, by simp [hasLivepatch, copy, hx], by simp [Patched, isBase_iff, hx]⟩
    · refine ⟨b, by simpa [hasLivepatch, copy, hx] using h1, ?_⟩
      rw [h2]
      simp [Patched, isBase_iff, hx]

open Classical in
theorem printLibPatches_ok (version : Nat) (buildid : Bool) (ps : List Patch) (o : Object) :
    ∃ r, printLibPatches o.filename (ps.map (copy version)) = some r ∧
      about version buildid ps o = .library o.filename (if buildid then some o.buildId else none) (if o.version ≠ 0 then some o.version else none) :: r := by
  unfold about
  induction ps with
  | nil => exact ⟨[], rfl, rfl⟩
  | cons x xs ih =>
    obtain ⟨r, h1, h2⟩ := ih
    have h3 := (List.cons.inj h2).2
    by_cases hx : getBasename o.filename = x.lib
    · refine ⟨.patch (getBasename x.container) (shownTime version x.time) :: r, ?_, ?_⟩
      · simp only [List.map_cons, printLibPatches, copy, hx, if_true]
        rw [show printLibPatches o.filename (List.map (copy version) xs) = some r from h1] 
        simp only [shownTime]
        congr 3
        by_cases hv : Text.triplet 0 3 1 ≤ version <;> simp [hv]
      · have e := decide_eq_true ((isBase_iff o.filename x.lib).mpr hx)
        rw [← h3, List.filter_cons]
        simp only [e, if_true, List.map_cons]
    · refine ⟨r, ?_, ?_⟩
      · simp only [List.map_cons, printLibPatches, copy, hx, if_false]
        exact h1
      · have e : decide (IsBase o.filename x.lib) = false := decide_eq_false (fun h => hx ((isBase_iff _ _).mp h))
        rw [← h3, List.filter_cons]
        simp only [e, Bool.false_eq_true, if_false]

theorem release_ok (version : Nat) (ps : List Patch) : releaseOk (ps.map (copy version)) = true := by
  simp [releaseOk, copy]

theorem printObjects_ok {arch : Arch} {p : Proc} (version : Nat) (buildid : Bool) (ps : List Patch) {objs : List Object} {shown : Object → Bool}
    (h : ∀ o ∈ objs, isLivepatchable arch p (ps.map (copy version)) o = some (shown o)) :
    printObjects arch p (ps.map (copy version)) buildid objs = some (objs.flatMap fun o => if shown o then about version buildid ps o else []) := by
  induction objs with
  | nil => rfl
  | cons o t ih =>
    have ih := ih fun x hx => h x (List.mem_cons_of_mem _ hx)
    obtain ⟨r, h1, h2⟩ := printLibPatches_ok version buildid ps o
    rw [printObjects, h o (List.mem_cons_self ..), ih, List.flatMap_cons]
    cases hs : shown o with
    | false => simp
    | true => simp [h1, h2]

theorem symLoop_isSome (arch : Arch) (p : Proc) (ehdr : Nat) : ∀ k a ret, (0 < k ∨ ret.isSome) → ∃ b, symLoop arch p ehdr k a ret = some b := by
  intro k
  induction k with
  | zero => intro a ret h; exact Option.isSome_iff_exists.mp (h.resolve_left (by omega))
  | succ k ih =>
    intro a ret _
    simp only [symLoop]
    split
    · exact ⟨_, rfl⟩
    · split
      · exact ⟨_, rfl⟩
      · exact ih _ _ (Or.inr rfl)

theorem isLivepatchable_some {arch : Arch} {p : Proc} (version : Nat) (ps : List Patch) (o : Object) (h : Patched ps o ∨ 0 < o.count) :
    ∃ b, isLivepatchable arch p (ps.map (copy version)) o = some b ∧ (Patched ps o → b = true) := by
  obtain ⟨b, h1, h2⟩ := hasLivepatch_ok version ps o
  unfold isLivepatchable
  rw [h1]
  cases b with
  | true => exact ⟨true, rfl, fun _ => rfl⟩
  | false =>
    have hn : ¬ Patched ps o := fun hp => by simpa using h2.mpr hp
    obtain ⟨b, hb⟩ := symLoop_isSome arch p o.ehdr (min o.count 8000).toNat o.dynsym none (Or.inl (by have := h.resolve_left hn; omega))
    exact ⟨b, hb, fun hp => absurd hp hn⟩

/-- The whole output, when it is known which objects are shown. -/
theorem printProcess_ok {arch : Arch} {p : Proc} {l : Libpulp} (name : Str) {ps : List Patch} (hs : State p l ps) {objs : List Object} (buildid only : Bool) {shown : Object → Bool}
    (h : ∀ o ∈ objs, isLivepatchable arch p (ps.map (copy l.version)) o = some (shown o)) :
    ∃ N, ∀ fuel, N ≤ fuel → printProcess arch p l name objs buildid only fuel =
      some (.ok (if only = true ∧ ps = [] then [] else
        [.process (getBasename name), statusLine p l, .header] ++ (objs.flatMap fun o => if shown o then about l.version buildid ps o else []) ++ [.empty])) := by
  obtain ⟨N, hN⟩ := readState_ok hs
  refine ⟨N, fun fuel hf => ?_⟩
  unfold printProcess
  rw [hN fuel hf]
  simp only [List.map_eq_nil_iff]
  split
  · rfl
  · rw [printObjects_ok l.version buildid ps h]
    simp [release_ok]

open Classical in
/-- C97: `ulp patches` shows, with each object that has live patches, exactly the live patches applied to objects of that base name, in order, and when they were applied; nothing is
printed about a process without live patches if only those with live patches are asked for.  Partial: which of several objects of the same base name, and which objects of another
name, a live patch was applied to is not shown; see below. -/
theorem C97_patches_shown_partial {arch : Arch} {p : Proc} {l : Libpulp} (name : Str) {ps : List Patch} (hs : State p l ps) {objs : List Object} (buildid only : Bool)
    (hc : ∀ o ∈ objs, Patched ps o ∨ 0 < o.count) :
    ∃ shown : Object → Bool, (∀ o ∈ objs, Patched ps o → shown o = true) ∧ ∃ N, ∀ fuel, N ≤ fuel → printProcess arch p l name objs buildid only fuel =
      some (.ok (if only = true ∧ ps = [] then [] else
        [.process (getBasename name), statusLine p l, .header] ++ (objs.flatMap fun o => if shown o then about l.version buildid ps o else []) ++ [.empty])) := by
  refine ⟨fun o => (isLivepatchable arch p (ps.map (copy l.version)) o).getD false, fun o ho hp => ?_, printProcess_ok name hs buildid only fun o ho => ?_⟩
  · obtain ⟨b, h1, h2⟩ := isLivepatchable_some (arch := arch) (p := p) l.version ps o (Or.inl hp)
    simp [h1, h2 hp]
  · obtain ⟨b, h1, -⟩ := isLivepatchable_some (arch := arch) (p := p) l.version ps o (hc o ho)
    simp [h1]

theorem about_no_patch (version : Nat) (buildid : Bool) {ps : List Patch} {o : Object} (h : ¬ Patched ps o) :
    about version buildid ps o = [.library o.filename (if buildid then some o.buildId else none) (if o.version ≠ 0 then some o.version else none)] := by
  unfold about
  congr 1
  rw [List.map_eq_nil_iff, List.filter_eq_nil_iff]
  intro x hx hb
  exact h ⟨x, hx, by simpa using hb⟩

/-- C97 is false if the name of the target library, as given when the live patch was made, is not the name of the file loaded (libpulp applies a live patch for `libc.so` to
`libc.so.6`): no live patch is shown, however many are applied. -/
theorem C97_other_name {arch : Arch} {p : Proc} {l : Libpulp} (name : Str) {ps : List Patch} (hs : State p l ps) {objs : List Object} (buildid only : Bool)
    (hc : ∀ o ∈ objs, 0 < o.count) (hn : ∀ o ∈ objs, ¬ Patched ps o) :
    ∃ N, ∀ fuel, N ≤ fuel → ∃ out, printProcess arch p l name objs buildid only fuel = some (.ok out) ∧ ∀ c t, .patch c t ∉ out := by
  obtain ⟨shown, -, N, hN⟩ := C97_patches_shown_partial (arch := arch) name hs buildid only fun o ho => Or.inr (hc o ho)
  refine ⟨N, fun fuel hf => ⟨_, hN fuel hf, fun c t => ?_⟩⟩
  split
  · simp
  · simp only [List.mem_append, List.mem_flatMap, not_or]
    have hst : ∀ c t, statusLine p l ≠ .patch c t := by
      intro c t
      unfold statusLine
      simp only
      repeat' split
      all_goals simp
    refine ⟨⟨?_, ?_⟩, by simp⟩
    · have := hst c t
      simp [Ne.symm this]
    · rintro ⟨o, ho, hm⟩
      split at hm
      · rw [about_no_patch _ _ (hn o ho)] at hm
        simp at hm
      · simp at hm

/-- C97 is false of two libraries of the same base name: a live patch applied to one of them is shown with both. -/
theorem C97_same_name {arch : Arch} {p : Proc} {l : Libpulp} (name : Str) {ps : List Patch} (hs : State p l ps) {a b c : List Object} {o₁ o₂ : Object} (buildid only : Bool)
    (hc : ∀ o ∈ a ++ o₁ :: b ++ o₂ :: c, Patched ps o ∨ 0 < o.count) {x : Patch} (hx : x ∈ ps) (h1 : IsBase o₁.filename x.lib) (h2 : IsBase o₂.filename x.lib) :
    ∃ N, ∀ fuel, N ≤ fuel → ∃ out, printProcess arch p l name (a ++ o₁ :: b ++ o₂ :: c) buildid only fuel = some (.ok out) ∧
      2 ≤ out.count (.patch (getBasename x.container) (shownTime l.version x.time)) := by
  obtain ⟨shown, hp, N, hN⟩ := C97_patches_shown_partial (arch := arch) name hs buildid only hc
  refine ⟨N, fun fuel hf => ⟨_, hN fuel hf, ?_⟩⟩
  rw [if_neg (by rintro ⟨-, rfl⟩; simp at hx)]
  have key : ∀ o, IsBase o.filename x.lib → 1 ≤ (about l.version buildid ps o).count (.patch (getBasename x.container) (shownTime l.version x.time)) := by
    intro o ho
    rw [Nat.one_le_iff_ne_zero, ← Nat.pos_iff_ne_zero, List.count_pos_iff]
    unfold about
    apply List.mem_cons_of_mem
    rw [List.mem_map]
    exact ⟨x, List.mem_filter.mpr ⟨hx, by simpa using ho⟩, rfl⟩
  have s1 := hp o₁ (by simp) ⟨x, hx, h1⟩
  have s2 := hp o₂ (by simp) ⟨x, hx, h2⟩
  have k1 := key o₁ h1
  have k2 := key o₂ h2
  simp only [List.flatMap_append, List.flatMap_cons, List.count_append, s1, s2, if_true]
  omega

/-- C97 is false if the name of the target library is so close to the end of a mapping that the last word of it cannot be read: undefined behaviour. -/
theorem C97_name_at_end {arch : Arch} {p : Proc} {l : Libpulp} (name : Str) (o : Object) (objs : List Object) (buildid only : Bool) {a : Nat} {x : Patch} {next lib container : Nat} {xs : List Patch}
    (h0 : l.state ≠ 0) (hr : Readable p l.state 16) (ha : Num p (l.state + 8) 8 a)
    (ha0 : a ≠ 0) (har : Readable p a (if Text.triplet 0 3 1 ≤ l.version then 80 else 72)) (hid : p.mem.load a 32 = x.id)
    (hl0 : lib ≠ 0) (hl : Num p (a + 32) 8 lib) (hls : Ptrace.HoldsString p.mem lib x.lib) (hlr : Readable p lib (x.lib.length + 1)) (hend : p.readable (lib + (8 * (x.lib.length / 8) + 7)) = false)
    (hc0 : container ≠ 0) (hc : Num p (a + 40) 8 container) (hcs : HasStr p container x.container)
    (hn : Num p (a + 56) 8 next) (ht : Text.triplet 0 3 1 ≤ l.version → Num p (a + 72) 8 x.time) (hxs : Patches p l.version next xs) :
    ∃ N, ∀ fuel, N ≤ fuel → printProcess arch p l name (o :: objs) buildid only fuel = some (.error ()) := by
  obtain ⟨N, hN⟩ := readApplied_ok hxs
  refine ⟨N + x.lib.length + x.container.length + 2, fun fuel hf => ?_⟩
  obtain ⟨k, rfl⟩ : ∃ k, fuel = k + 1 := ⟨fuel - 1, by omega⟩
  have fl : fetch p lib k = some .remote := by
    unfold fetch
    rw [if_neg hl0, Ptrace.C10_string_at_mapping_end_fails hls (fun i hi => hlr i (by omega)) hend k (by omega)]
  have e := readApplied_step ha0 har hid hl hc hn ht fl (fetch_ok hc0 hcs (by omega)) (hN k (by omega))
  unfold printProcess readState
  rw [if_neg h0, readMem_ok hr]
  simp only
  rw [num_load ha (by omega), e]
  simp [printObjects, isLivepatchable, hasLivepatch]

/-! ### C98: libraries shown -/

theorem code_iff {p : Proc} {a : Nat} {bytes : Bytes} {n : Nat} (h : bytes.length = n) : Code p a bytes ↔ readMem p a n = some bytes := by
  subst h
  unfold Code Inspect.readMem
  constructor
  · rintro ⟨h1, h2⟩
    rw [if_pos, h2]
    rw [List.all_eq_true]
    exact fun i hi => h1 i (List.mem_range.mp hi)
  · intro h
    split at h
    · rename_i hall
      rw [List.all_eq_true] at hall
      exact ⟨fun i hi => hall i (List.mem_range.mpr hi), Option.some.inj h⟩
    · simp at h

theorem readMem_length {p : Proc} {a n : Nat} {b : Bytes} (h : readMem p a n = some b) : b.length = n := by
  unfold Inspect.readMem at h
  split at h
  · rw [← Option.some.inj h]; simp
  · simp at h

theorem checkPreamble_iff (arch : Arch) (p : Proc) (a : Nat) : checkPreamble arch p a = true ↔ Pad p a arch := by
  cases arch with
  | x86_64 =>
    simp only [Pad, code_iff (bytes := [0x66, 0x90]) (n := 2) rfl, code_iff (bytes := [0x90, 0x90]) (n := 2) rfl, checkPreamble]
    cases h : readMem p a 2 with
    | none => simp
    | some b =>
      have hl := readMem_length h
      match b, hl with
      | [x, y], _ => simp; grind
  | ppc64le =>
    simp only [Pad, checkPreamble]
    cases h : readMem p a 12 with
    | none =>
      simp only [Bool.false_eq_true, false_iff, not_exists, not_and, not_or]
      intro x y hx hy
      rw [code_iff (n := 12) (by simp [hx, hy]), code_iff (n := 12) (by simp [hx, hy]), h]
      simp
    | some b =>
      have hl := readMem_length h
      constructor
      · intro hb
        simp only [Bool.decide_or, Bool.or_eq_true, decide_eq_true_eq] at hb
        rcases hb with hb | hb
        · refine ⟨(b.drop 4).take 4, b.drop 8, by simp [hl], by simp [hl], Or.inl ?_⟩
          rw [code_iff (n := 12) (by simp [hl]), h]
          congr 1
          rw [← hb, List.append_assoc]
          conv => lhs; rw [← List.take_append_drop 4 b, ← List.take_append_drop 4 (b.drop 4), List.drop_drop]
        · refine ⟨b.take 4, (b.drop 4).take 4, by simp [hl], by simp [hl], Or.inr ?_⟩
          rw [code_iff (n := 12) (by simp [hl]), h]
          congr 1
          rw [← hb, List.append_assoc]
          conv => lhs; rw [← List.take_append_drop 4 b, ← List.take_append_drop 4 (b.drop 4), List.drop_drop]
      · rintro ⟨x, y, hx, hy, hb | hb⟩
        · rw [code_iff (n := 12) (by simp [hx, hy]), h] at hb
          have := Option.some.inj hb
          subst this
          simp
        · rw [code_iff (n := 12) (by simp [hx, hy]), h] at hb
          have := Option.some.inj hb
          subst this
          have : (x ++ y ++ [0, 0, 0, 0x60]).drop 8 = [0, 0, 0, 0x60] := by
            rw [show 8 = (x ++ y).length by simp [hx, hy], List.drop_left]
          simp only [this]
          simp

theorem symLoop_iff {arch : Arch} {p : Proc} {ehdr : Nat} : ∀ (values : List Nat) (a : Nat) (ret : Option Bool), a + 24 * values.length < 2 ^ 64 → Readable p a (24 * values.length) →
    (∀ i v, values[i]? = some v → Num p (a + 24 * i + 8) 8 v ∧ ehdr + v < 2 ^ 64) → (values ≠ [] ∨ ret = some false) →
    ∃ b, symLoop arch p ehdr values.length a ret = some b ∧ (b = true ↔ ∃ v ∈ values, Pad p (ehdr + v) arch) := by
  intro values
  induction values with
  | nil => intro a ret _ _ _ h; exact ⟨false, by simpa [symLoop] using h, by simp⟩
  | cons v t ih =>
    intro a ret hlt hr hv _
    simp only [List.length_cons] at hlt hr
    obtain ⟨n1, n2⟩ := hv 0 v rfl
    simp only [List.length_cons, symLoop]
    rw [readMem_ok (readable_sub hr (by omega) (by omega))]
    simp only
    rw [num_load (show Num p (a + 8) 8 v by simpa using n1) (by omega), wrap_lt n2, wrap_lt (by omega)]
    by_cases hp : checkPreamble arch p (ehdr + v) = true
    · rw [if_pos hp]
      exact ⟨true, rfl, by simp [(checkPreamble_iff ..).mp hp]⟩
    · rw [if_neg hp]
      have hnp : ¬ Pad p (ehdr + v) arch := fun h => hp ((checkPreamble_iff ..).mpr h)
      obtain ⟨b, h1, h2⟩ := ih (a + 24) (some false) (by omega) (readable_sub hr (by omega) (by omega))
        (fun i w hw => by have := hv (i + 1) w (by simpa using hw); rwa [show a + 24 * (i + 1) = a + 24 + 24 * i by omega] at this) (Or.inr rfl)
      exact ⟨b, h1, by rw [h2]; simp [hnp]⟩

/-- C98 of one object. -/
theorem isLivepatchable_iff {arch : Arch} {p : Proc} (version : Nat) (ps : List Patch) {o : Object} {values : List Nat} (hs : Symbols p o values) (h0 : values ≠ []) (hm : values.length ≤ 8000) :
    ∃ b, isLivepatchable arch p (ps.map (copy version)) o = some b ∧ (b = true ↔ Patched ps o ∨ HasPad arch p o values) := by
  obtain ⟨b, h1, h2⟩ := hasLivepatch_ok version ps o
  unfold isLivepatchable
  rw [h1]
  cases b with
  | true => exact ⟨true, rfl, by simp [h2.mp rfl]⟩
  | false =>
    have hn : ¬ Patched ps o := fun hp => by simpa using h2.mpr hp
    obtain ⟨c, g1, g2, g3⟩ := hs
    have hk : (min o.count 8000).toNat = values.length := by omega
    simp only [hk]
    obtain ⟨b, e1, e2⟩ := symLoop_iff (arch := arch) values o.dynsym none g1 g2 g3 (Or.inl h0)
    exact ⟨b, e1, by rw [e2]; simp [hn, HasPad]⟩

open Classical in
/-- C98: `ulp patches` shows exactly the objects to which a live patch was applied, or which have a function that can be live patched, with their live patches.  Partial: each object has
between 1 and 8000 dynamic symbols as counted with `DT_HASH`, any symbol counts as a function, and a function does not start with `endbr64`; see below. -/
theorem C98_libraries_shown_partial {arch : Arch} {p : Proc} {l : Libpulp} (name : Str) {ps : List Patch} (hs : State p l ps) {objs : List Object} (buildid only : Bool)
    {values : Object → List Nat} (hv : ∀ o ∈ objs, Symbols p o (values o) ∧ values o ≠ [] ∧ (values o).length ≤ 8000) :
    ∃ N, ∀ fuel, N ≤ fuel → printProcess arch p l name objs buildid only fuel =
      some (.ok (if only = true ∧ ps = [] then [] else
        [.process (getBasename name), statusLine p l, .header] ++
          ((objs.filter fun o => Patched ps o ∨ HasPad arch p o (values o)).flatMap (about l.version buildid ps)) ++ [.empty])) := by
  obtain ⟨N, hN⟩ := printProcess_ok (shown := fun o => decide (Patched ps o ∨ HasPad arch p o (values o))) name hs buildid only fun o ho => by
    obtain ⟨h1, h2, h3⟩ := hv o ho
    obtain ⟨b, e1, e2⟩ := isLivepatchable_iff (arch := arch) l.version ps h1 h2 h3
    rw [e1]
    congr 1
    rw [Bool.eq_iff_iff, e2, decide_eq_true_iff]
  refine ⟨N, fun fuel hf => ?_⟩
  rw [hN fuel hf]
  have e : (objs.flatMap fun o => if decide (Patched ps o ∨ HasPad arch p o (values o)) = true then about l.version buildid ps o else []) =
      (objs.filter fun o => Patched ps o ∨ HasPad arch p o (values o)).flatMap (about l.version buildid ps) := by
   clear hN hv
   induction objs with
   | nil => rfl
   | cons o t ih =>
    rw [List.flatMap_cons, ih, List.filter_cons]
    split <;> simp
  rw [e]

/-- C98 is false of an object without `DT_HASH`, as most are today: unless a live patch is applied to it, what is printed depends on a variable that was never set. -/
theorem C98_gnu_hash {arch : Arch} {p : Proc} {l : Libpulp} (name : Str) {ps : List Patch} (hs : State p l ps) {objs : List Object} {o : Object} (ho : o ∈ objs) (buildid only : Bool)
    (hc : o.count ≤ 0) (hn : ¬ Patched ps o) (honly : only = false ∨ ps ≠ []) :
    ∃ N, ∀ fuel, N ≤ fuel → printProcess arch p l name objs buildid only fuel = some (.error ()) := by
  obtain ⟨N, hN⟩ := readState_ok hs
  refine ⟨N, fun fuel hf => ?_⟩
  unfold printProcess
  rw [hN fuel hf]
  simp only [List.map_eq_nil_iff]
  rw [if_neg (by rintro ⟨h1, h2⟩; rcases honly with h | h <;> simp_all)]
  have key : printObjects arch p (ps.map (copy l.version)) buildid objs = none := by
    clear hN hf
    induction objs with
    | nil => simp at ho
    | cons x t ih =>
      rw [printObjects]
      rcases List.mem_cons.mp ho with rfl | ht
      · have : isLivepatchable arch p (ps.map (copy l.version)) o = none := by
          obtain ⟨b, h1, h2⟩ := hasLivepatch_ok l.version ps o
          unfold isLivepatchable
          rw [h1]
          cases b with
          | true => exact absurd (h2.mp rfl) hn
          | false =>
            have hk : (min o.count 8000).toNat = 0 := by omega
            simp only [hk]
            rfl
        rw [this]
      · rw [ih ht]
        cases isLivepatchable arch p (ps.map (copy l.version)) x with
        | none => rfl
        | some b => cases b <;> simp
  rw [key]

/-- C98 is false of an x86-64 library built for control-flow enforcement, all of whose functions start with `endbr64`: it is not shown, although libpulp and the post-processing tool take such
functions for ones that can be live patched. -/
theorem C98_endbr64 {p : Proc} (version : Nat) {ps : List Patch} {o : Object} {values : List Nat} (hs : Symbols p o values) (h0 : values ≠ []) (hm : values.length ≤ 8000)
    (hn : ¬ Patched ps o) (he : ∀ v ∈ values, Code p (o.ehdr + v) [0xf3, 0x0f, 0x1e, 0xfa]) : isLivepatchable .x86_64 p (ps.map (copy version)) o = some false := by
  obtain ⟨b, h1, h2⟩ := isLivepatchable_iff (arch := .x86_64) version ps hs h0 hm
  rw [h1]
  cases b with
  | false => rfl
  | true =>
    rcases h2.mp rfl with h | ⟨v, hv, hp⟩
    · exact absurd h hn
    · have hc := he v hv
      have e : p.mem.load (o.ehdr + v) 4 = [0xf3, 0x0f, 0x1e, 0xfa] := hc.2
      rcases hp with hp | hp <;> (have := hp.2; simp [Mem.load] at this e; simp_all)

/-- C98 is false of a library with more than 8000 symbols: whether functions after the first 8000 symbols can be live patched makes no difference. -/
theorem C98_many_symbols {arch : Arch} {p : Proc} (version : Nat) {ps : List Patch} {o : Object} {values : List Nat} (hs : Symbols p { o with count := values.length } values) (hm : values.length = 8000)
    (hc : 8000 ≤ o.count) (hn : ¬ Patched ps o) (hp : ¬ HasPad arch p o values) : isLivepatchable arch p (ps.map (copy version)) o = some false := by
  obtain ⟨b, h1, h2⟩ := isLivepatchable_iff (arch := arch) version ps hs (by rintro rfl; simp at hm) (by omega)
  have : isLivepatchable arch p (ps.map (copy version)) o = isLivepatchable arch p (ps.map (copy version)) { o with count := values.length } := by
    unfold isLivepatchable
    rw [show min o.count 8000 = min ((values.length : Nat) : Int) 8000 by omega]
  rw [this, h1]
  cases b with
  | false => rfl
  | true =>
    rcases h2.mp rfl with h | h
    · exact absurd h hn
    · exact absurd h hp

/-! ### C99: the status line -/

/-- C99: the status line says what libpulp's error state is: enabled without an error, disabled by the user, or which error. -/
theorem C99_status {p : Proc} {l : Libpulp} {e : Nat} (h0 : l.errorState ≠ 0) (hr : Readable p l.errorState 4) (he : Num p l.errorState 4 e) (hold : e ≠ EOLDLIBPULP) :
    (statusLine p l = .enabled ↔ e = ENONE) ∧ (statusLine p l = .disabledByUser ↔ e = EUSRBLOCKED) ∧
      ∀ e', statusLine p l = .disabled e' ↔ e' = e ∧ e ≠ ENONE ∧ e ≠ EUSRBLOCKED := by
  have h : errorState p l = e := by
    unfold errorState
    rw [if_pos h0, readMem_ok hr]
    simp only
    exact num_load (a := l.errorState) (off := 0) he (by omega)
  have d : EUSRBLOCKED ≠ ENONE := by decide
  unfold statusLine
  simp only [h, hold, or_false]
  by_cases h1 : e = ENONE
  · subst h1
    simp [Ne.symm d]
  · by_cases h2 : e = EUSRBLOCKED
    · subst h2
      simp [d]
    · simp [h1, h2, eq_comm]

/-- C99: a libpulp too old to have an error state accepts live patches, and is shown as enabled. -/
theorem C99_old {p : Proc} {l : Libpulp} (h0 : l.errorState = 0) (ht : l.trigger ≠ 0) : statusLine p l = .enabled := by
  simp [statusLine, errorState, h0, ht]

/-! ### Examples -/

/-- Memory of an example: two live patches, for `libc.so.6` and `libm.so.6`; symbols and code of the libraries. -/
def demoChunks : List (Nat × Bytes) :=
  let str (s : String) : Bytes := s.toUTF8.toList ++ [0]
  let patch (id : UInt8) (lib container next time : Nat) : Bytes := List.replicate 32 id ++ le 8 lib ++ le 8 container ++ le 8 0 ++ le 8 next ++ le 8 0 ++ le 8 time
  let sym (v : Nat) : Bytes := le 8 0 ++ le 8 v ++ le 8 0
  [(4096, le 8 1 ++ le 8 4200), (4200, patch 7 4400 4500 4300 99), (4300, patch 8 4420 4540 0 100), (4400, str "libc.so.6"), (4420, str "libm.so.6"),
    (4500, str "/lp/one.so"), (4540, str "/lp/two.so"), (4600, le 4 280), (4700, le 8 1 ++ le 8 4300),
    (5040, [0x66, 0x90]), (5100, sym 0 ++ sym 40), (6016, [0xf3, 0x0f, 0x1e, 0xfa, 0x66, 0x90]), (6100, sym 16)]

def demo : Proc where
  readable a := decide (4096 ≤ a ∧ a < 8192)
  mem a := (demoChunks.findSome? fun c => if c.1 ≤ a then c.2[a - c.1]? else none).getD 0
  auxv := []
  ehdr0 := 0

def demoPulp : Libpulp := ⟨4096, 4600, 1, Text.triplet 0 3 1⟩

def demoLibc : Object := ⟨"/lib/libc.so.6".toUTF8.toList, [], 0, 5000, 5100, 2⟩
def demoLibm : Object := ⟨"/lib/libm.so.6".toUTF8.toList, [], 0, 5000, 5100, 2⟩
/-- Its only function starts with `endbr64`. -/
def demoCet : Object := ⟨"/lib/libx.so".toUTF8.toList, [], 0, 6000, 6100, 1⟩

def demoPatches : List Patch :=
  [⟨List.replicate 32 7, "libc.so.6".toUTF8.toList, "/lp/one.so".toUTF8.toList, 99⟩, ⟨List.replicate 32 8, "libm.so.6".toUTF8.toList, "/lp/two.so".toUTF8.toList, 100⟩]

instance (p : Proc) (a n : Nat) : Decidable (Readable p a n) := inferInstanceAs (Decidable (∀ i, i < n → p.readable (a + i) = true))
instance (p : Proc) (a n v : Nat) : Decidable (Num p a n v) := inferInstanceAs (Decidable (_ ∧ _))
instance (m : Mem) (a : Nat) (l : Bytes) : Decidable (At m a l) := inferInstanceAs (Decidable (_ = _))
instance (p : Proc) (a : Nat) (s : Str) : Decidable (HasStr p a s) := inferInstanceAs (Decidable ((At _ _ _ ∧ _) ∧ _))
instance (p : Proc) (a : Nat) (b : Bytes) : Decidable (Code p a b) := inferInstanceAs (Decidable (_ ∧ _))

theorem demo_list : Patches demo (Text.triplet 0 3 1) 4200 demoPatches :=
  .cons (lib := 4400) (container := 4500) (next := 4300) (by decide) (by decide +kernel) (by decide +kernel) (by decide) (by decide +kernel) (by decide +kernel) (by decide)
    (by decide +kernel) (by decide +kernel) (by decide +kernel) (by decide +kernel)
    (.cons (lib := 4420) (container := 4540) (next := 0) (by decide) (by decide +kernel) (by decide +kernel) (by decide) (by decide +kernel) (by decide +kernel) (by decide)
      (by decide +kernel) (by decide +kernel) (by decide +kernel) (by decide +kernel) .nil)

theorem demo_state : State demo demoPulp demoPatches := ⟨by decide, by decide +kernel, 4200, by decide +kernel, demo_list⟩

theorem forall_get {α : Type} {l : List α} {P : Nat → α → Prop} (h : ∀ i (hi : i < l.length), P i l[i]) : ∀ i x, l[i]? = some x → P i x := by
  intro i x hx
  obtain ⟨hi, rfl⟩ := List.getElem?_eq_some_iff.mp hx
  exact h i hi

theorem demo_symbols : Symbols demo demoLibc [0, 40] ∧ Symbols demo demoLibm [0, 40] ∧ Symbols demo demoCet [16] :=
  ⟨⟨by decide, by decide, by decide +kernel, forall_get (by decide +kernel)⟩, ⟨by decide, by decide, by decide +kernel, forall_get (by decide +kernel)⟩,
    ⟨by decide, by decide, by decide +kernel, forall_get (by decide +kernel)⟩⟩

/-- What is printed about a process with both libraries, and one that has no live patch. -/
example : (printProcess .x86_64 demo demoPulp "prog".toUTF8.toList [demoLibc, demoLibm, demoCet] false true 20).bind Except.toOption = some (
    [.process "prog".toUTF8.toList, .disabledByUser, .header, .library "/lib/libc.so.6".toUTF8.toList none none, .patch "one.so".toUTF8.toList (some 99),
      .library "/lib/libm.so.6".toUTF8.toList none none, .patch "two.so".toUTF8.toList (some 100), .empty]) := by decide +kernel

def demoValues (o : Object) : List Nat := if o.count = 1 then [16] else [0, 40]

theorem demo_values : ∀ o ∈ [demoLibc, demoLibm, demoCet], Symbols demo o (demoValues o) ∧ demoValues o ≠ [] ∧ (demoValues o).length ≤ 8000 := by
  intro o ho
  simp only [List.mem_cons, List.not_mem_nil, or_false] at ho
  rcases ho with rfl | rfl | rfl
  · exact ⟨demo_symbols.1, by decide, by decide⟩
  · exact ⟨demo_symbols.2.1, by decide, by decide⟩
  · exact ⟨demo_symbols.2.2, by decide, by decide⟩

open Classical in
/-- The conditions of C97 and C98 are met by it. -/
example : ∃ N, ∀ fuel, N ≤ fuel → printProcess .x86_64 demo demoPulp "prog".toUTF8.toList [demoLibc, demoLibm, demoCet] false true fuel = some (.ok
    (if true = true ∧ demoPatches = [] then [] else [.process (getBasename "prog".toUTF8.toList), statusLine demo demoPulp, .header] ++
      (([demoLibc, demoLibm, demoCet].filter fun o => Patched demoPatches o ∨ HasPad .x86_64 demo o (demoValues o)).flatMap
        (about (Text.triplet 0 3 1) false demoPatches)) ++ [.empty])) :=
  C98_libraries_shown_partial _ demo_state false true demo_values

theorem demo_not_patched : ¬ Patched demoPatches demoCet := by
  simp only [Patched, isBase_iff]
  decide +kernel

/-- The library without live patch is not shown, although its function could be live patched. -/
example : isLivepatchable .x86_64 demo (demoPatches.map (copy 0)) demoCet = some false :=
  C98_endbr64 0 demo_symbols.2.2 (by decide) (by decide) demo_not_patched (by decide +kernel)

/-- Undefined behaviour if it were linked with the GNU style of hash table only. -/
example : ∃ N, ∀ fuel, N ≤ fuel → printProcess .x86_64 demo demoPulp "prog".toUTF8.toList [demoLibc, { demoCet with count := 0 }] false true fuel = some (.error ()) :=
  C98_gnu_hash _ demo_state (o := { demoCet with count := 0 }) (by simp) false true (by decide) demo_not_patched (Or.inr (by decide))

/-- Only a library of another name is loaded: neither of the live patches is shown. -/
example : ∃ N, ∀ fuel, N ≤ fuel → ∃ out, printProcess .x86_64 demo demoPulp "prog".toUTF8.toList [demoCet] false true fuel = some (.ok out) ∧ ∀ c t, .patch c t ∉ out :=
  C97_other_name _ demo_state false true (by decide) (by simpa using demo_not_patched)

/-- Two libraries `libc.so.6`. -/
example : ∃ N, ∀ fuel, N ≤ fuel → ∃ out, printProcess .x86_64 demo demoPulp "prog".toUTF8.toList ([] ++ demoLibc :: [] ++ { demoLibc with filename := "/opt/libc.so.6".toUTF8.toList } :: []) false true fuel =
    some (.ok out) ∧ 2 ≤ out.count (.patch (getBasename demoPatches[0].container) (shownTime (Text.triplet 0 3 1) 99)) :=
  C97_same_name (a := []) (b := []) (c := []) (o₁ := demoLibc) (o₂ := { demoLibc with filename := "/opt/libc.so.6".toUTF8.toList }) (x := demoPatches[0]) _ demo_state false true (fun o ho => Or.inr (by revert o; decide)) (by simp) ((isBase_iff _ _).mpr (by decide +kernel)) ((isBase_iff _ _).mpr (by decide +kernel))

/-- Memory ends 10 bytes after the start of the name of the second library, right after it. -/
example : ∃ N, ∀ fuel, N ≤ fuel → printProcess .x86_64 { demo with readable := fun a => demo.readable a && (a < 4430 || 4440 ≤ a) } { demoPulp with state := 4700 } "prog".toUTF8.toList [demoLibc] false false fuel =
    some (.error ()) :=
  C97_name_at_end (a := 4300) (x := demoPatches[1]) (next := 0) (lib := 4420) (container := 4540) (xs := []) _ _ _ _ _ (by decide) (by decide +kernel) (by decide +kernel)
    (by decide) (by decide +kernel) (by decide +kernel) (by decide) (by decide +kernel) ⟨by decide +kernel, by decide +kernel⟩ (by decide +kernel) (by decide +kernel) (by decide) (by decide +kernel)
    (by decide +kernel) (by decide +kernel) (by decide +kernel) .nil

/-- A status. -/
example : statusLine demo demoPulp = .disabledByUser := (C99_status (p := demo) (l := demoPulp) (e := 280) (by decide) (by decide +kernel) (by decide +kernel) (by decide)).2.1.mpr rfl

example := C97_patches_shown_partial (arch := .x86_64) "prog".toUTF8.toList demo_state (objs := [demoLibc, demoLibm, demoCet]) false true
  (fun _ h => .inr (by simp only [List.mem_cons, List.not_mem_nil, or_false] at h; rcases h with rfl | rfl | rfl <;> decide))
example := C99_old (p := demo) (l := ⟨4096, 0, 1, Text.triplet 0 1 0⟩) rfl (by decide)

/-- A library with 9000 symbols, the first 8000 of value zero. -/
def demoMany : Proc := { demo with mem := fun _ => 0, readable := fun _ => true }
theorem demo_many : Symbols demoMany { demoCet with count := (List.replicate 8000 0 : List Nat).length } (List.replicate 8000 0) := by
  refine ⟨rfl, ?_, fun _ _ => rfl, fun i v h => ?_⟩
  · rw [List.length_replicate]; decide
  · obtain ⟨hi, rfl⟩ := List.getElem?_eq_some_iff.mp h
    rw [List.getElem_replicate]
    exact ⟨⟨rfl, by decide⟩, by decide⟩
example : isLivepatchable .x86_64 demoMany ([].map (copy 0)) { demoCet with count := 9000 } = some false :=
  C98_many_symbols 0 demo_many List.length_replicate (by decide) (fun ⟨_, h, _⟩ => absurd h List.not_mem_nil) (by
    rintro ⟨v, hv, h⟩
    rw [List.eq_of_mem_replicate hv] at h
    exact absurd h (by unfold Pad; decide))

end Verif.Status
