import Verif.Loadtime.Model
import Verif.Version.Props
import Verif.Status.Props

/-! C208: when live patches were applied, as `ulp patches` shows it. -/

namespace Verif.Loadtime

open Verif.Inspect (Proc)
open Verif.Inspect.Spec (Readable)
open Verif.Status (Arch Libpulp Object Line printProcess)
open Verif.Status.Spec
open Verif.Version (Has WordReadable text)

/-- Version a.b.c is 0.3.1 or later. -/
def Stamps (a b c : Nat) : Prop := 0 < a ∨ 3 < b ∨ (b = 3 ∧ 0 < c)

instance (a b c : Nat) : Decidable (Stamps a b c) := inferInstanceAs (Decidable (_ ∨ _))

theorem stamps_iff {a b c : Nat} (ha : a < 2 ^ 16) (hb : b < 2 ^ 16) (hc : c < 2 ^ 16) :
    Text.triplet 0 3 1 ≤ Text.triplet a b c ↔ Stamps a b c := by
  rw [Text.triplet_eq ha hb hc, Text.triplet_eq (by omega) (by omega) (by omega)]
  unfold Stamps
  omega

theorem shows {arch : Arch} {p : Proc} {l : Libpulp} {ps : List Patch} (hs : State p l ps) (name : Str) (objs : List Object)
    (hc : ∀ o ∈ objs, Patched ps o ∨ 0 < o.count) (buildid only : Bool) {x : Patch} (hx : x ∈ ps) {o : Object} (ho : o ∈ objs)
    (hb : IsBase o.filename x.lib) :
    ∃ N, ∀ fuel, N ≤ fuel → ∃ out, printProcess arch p l name objs buildid only fuel = some (.ok out) ∧
      .patch (getBasename x.container) (shownTime l.version x.time) ∈ out := by
  obtain ⟨shown, hsh, N, hN⟩ := Status.C97_patches_shown_partial (arch := arch) name hs buildid only hc
  refine ⟨N, fun fuel hf => ⟨_, hN fuel hf, ?_⟩⟩
  rw [if_neg (by rintro ⟨-, rfl⟩; simp at hx)]
  refine List.mem_append_left _ (List.mem_append_right _ (List.mem_flatMap.mpr ⟨o, ho, ?_⟩))
  rw [if_pos (hsh o ho ⟨x, hx, hb⟩)]
  unfold about
  refine List.mem_cons_of_mem _ (List.mem_map.mpr ⟨x, List.mem_filter.mpr ⟨hx, by simpa using hb⟩, rfl⟩)

theorem objs_count {ps : List Patch} {pre : List Object} {pulp : Object} {post : List Object} (v : Nat)
    (h : ∀ o ∈ pre ++ pulp :: post, Patched ps o ∨ 0 < o.count) :
    ∀ o ∈ pre ++ { pulp with version := v } :: post, Patched ps o ∨ 0 < o.count := by
  intro o ho
  rcases List.mem_append.mp ho with ho | ho
  · exact h o (List.mem_append_left _ ho)
  · rcases List.mem_cons.mp ho with rfl | ho
    · exact h pulp (List.mem_append_right _ (List.mem_cons_self ..))
    · exact h o (List.mem_append_right _ (List.mem_cons_of_mem _ ho))

theorem objs_base {lib : Str} {pre : List Object} {pulp : Object} {post : List Object} (v : Nat) {o : Object}
    (ho : o ∈ pre ++ pulp :: post) (h : IsBase o.filename lib) :
    ∃ o' ∈ pre ++ { pulp with version := v } :: post, IsBase o'.filename lib := by
  rcases List.mem_append.mp ho with ho | ho
  · exact ⟨o, List.mem_append_left _ ho, h⟩
  · rcases List.mem_cons.mp ho with rfl | ho
    · exact ⟨{ o with version := v }, List.mem_append_right _ (List.mem_cons_self ..), h⟩
    · exact ⟨o, List.mem_append_right _ (List.mem_cons_of_mem _ ho), h⟩

/-- C208: a live patch whose target is loaded is shown with the time at which it was applied if libpulp in the process, of version a.b.c, keeps the time
(since 0.3.1), and without one otherwise.  Partial: the version has no suffix and can be read, and every object has symbols or a live patch. -/
theorem C208_times_shown_partial {arch : Arch} {p : Proc} {l : Libpulp} {at_ a b c : Nat} (ha : a < 2 ^ 16) (hb : b < 2 ^ 16) (hc : c < 2 ^ 16)
    (h : Has p at_ (text a b c)) (hw : ∀ k, k ≤ (text a b c).length / 8 → WordReadable p at_ k) (junk : List UInt8) (hj : junk.length = 32)
    {ps : List Patch} (hs : State p { l with version := Text.triplet a b c } ps) (name : Str) (pre : List Object) (pulp : Object) (post : List Object)
    (hcount : ∀ o ∈ pre ++ pulp :: post, Patched ps o ∨ 0 < o.count) (buildid only : Bool) {x : Patch} (hx : x ∈ ps) {o : Object}
    (ho : o ∈ pre ++ pulp :: post) (hbase : IsBase o.filename x.lib) :
    ∃ N, ∀ fuel, N ≤ fuel → ∃ out, print arch p l at_ junk name pre pulp post buildid only fuel = some (.ok out) ∧
      .patch (getBasename x.container) (if Stamps a b c ∧ x.time ≠ 0 then some x.time else none) ∈ out := by
  have hv := Version.C202_version_partial ha hb hc h hw junk hj
  rw [← Text.triplet_eq ha hb hc] at hv
  have hst := stamps_iff ha hb hc
  generalize Text.triplet a b c = v at hv hs hst
  obtain ⟨o', ho', hb'⟩ := objs_base v ho hbase
  have := shows (arch := arch) hs name _ (objs_count v hcount) buildid only hx ho' hb'
  unfold print
  rw [hv]
  simpa only [shownTime, hst] using this

theorem status_ne (p : Proc) (l : Libpulp) (c : Str) (t : Option Nat) : Status.statusLine p l ≠ .patch c t := by
  unfold Status.statusLine
  generalize Status.errorState p l = e
  dsimp only
  by_cases h1 : e = ENONE ∨ e = EOLDLIBPULP
  · rw [if_pos h1]; simp
  · rw [if_neg h1]
    by_cases h2 : e = EUSRBLOCKED
    · rw [if_pos h2]; simp
    · rw [if_neg h2]; simp

theorem patches_old {p : Proc} {v a : Nat} {ps : List Patch} (h : Patches p v a ps) : Patches p 0 a ps := by
  have h0 : ¬ Text.triplet 0 3 1 ≤ 0 := by decide
  induction h with
  | nil => exact .nil
  | cons h1 h2 h3 h4 h5 h6 h7 h8 h9 h10 _ _ ih =>
    refine .cons h1 ?_ h3 h4 h5 h6 h7 h8 h9 h10 (fun h => absurd h h0) ih
    rw [if_neg h0]
    intro i hi
    refine h2 i ?_
    split <;> omega

/-- C208 is false of a libpulp whose version has a suffix, as one built between releases may have: whichever version it is and whatever times it
keeps, all live patches are shown, but none with the time at which it was applied. -/
theorem C208_suffix {arch : Arch} {p : Proc} {l : Libpulp} {at_ a b : Nat} (ha : a < 2 ^ 16) (hb : b < 2 ^ 16) {last : Str} (h46 : (46 : UInt8) ∉ last)
    (hd : last = [] ∨ ∃ c ∈ last, ¬ (48 ≤ c ∧ c ≤ 57)) (h : Has p at_ (Text.printDec a ++ [46] ++ Text.printDec b ++ [46] ++ last))
    (hl : (Text.printDec a ++ [46] ++ Text.printDec b ++ [46] ++ last).length < 32)
    (hw : ∀ k, k ≤ (Text.printDec a ++ [46] ++ Text.printDec b ++ [46] ++ last).length / 8 → WordReadable p at_ k)
    (junk : List UInt8) (hj : junk.length = 32) {v : Nat} {ps : List Patch} (hs : State p { l with version := v } ps) (name : Str)
    (pre : List Object) (pulp : Object) (post : List Object) (hcount : ∀ o ∈ pre ++ pulp :: post, Patched ps o ∨ 0 < o.count) (buildid only : Bool) :
    ∃ N, ∀ fuel, N ≤ fuel → ∃ out, print arch p l at_ junk name pre pulp post buildid only fuel = some (.ok out) ∧
      (∀ c t, .patch c t ∈ out → t = none) ∧
      ∀ x ∈ ps, ∀ o ∈ pre ++ pulp :: post, IsBase o.filename x.lib → .patch (getBasename x.container) none ∈ out := by
  have hv := Version.C202_suffix ha hb h46 hd h hl hw junk hj
  unfold print
  simp only [hv]
  have hs0 : State p { l with version := 0 } ps := by
    obtain ⟨h1, h2, a, h3, h4⟩ := hs
    exact ⟨h1, h2, a, h3, patches_old h4⟩
  have hst : ∀ t, shownTime 0 t = none := fun t => if_neg (fun h => absurd h.1 (by decide))
  have hcount' := objs_count 0 hcount
  obtain ⟨shown, hsh, N, hN⟩ := Status.C97_patches_shown_partial (arch := arch) name hs0 buildid only hcount'
  refine ⟨N, fun fuel hf => ⟨_, hN fuel hf, ?_, ?_⟩⟩
  · intro c t hm
    split at hm
    · simp at hm
    · rcases List.mem_append.mp hm with hm | hm
      rotate_left
      · simp at hm
      rcases List.mem_append.mp hm with hm | hm
      · simp only [List.mem_cons, List.not_mem_nil, or_false, reduceCtorEq, false_or] at hm
        exact (status_ne _ _ _ _ hm.symm).elim
      · obtain ⟨o, -, hm⟩ := List.mem_flatMap.mp hm
        split at hm
        · unfold about at hm
          simp only [List.mem_cons, reduceCtorEq, false_or, List.mem_map] at hm
          obtain ⟨x, -, hx⟩ := hm
          injection hx with _ h2
          rw [← h2]; exact hst _
        · simp at hm
  · intro x hx o ho hbase
    rw [if_neg (by rintro ⟨-, rfl⟩; simp at hx)]
    obtain ⟨o', ho', hb'⟩ := objs_base 0 ho hbase
    refine List.mem_append_left _ (List.mem_append_right _ (List.mem_flatMap.mpr ⟨o', ho', ?_⟩))
    rw [if_pos (hsh o' ho' ⟨x, hx, hb'⟩)]
    unfold about
    exact List.mem_cons_of_mem _ (List.mem_map.mpr ⟨x, List.mem_filter.mpr ⟨hx, by simpa using hb'⟩, by rw [hst]⟩)

/-! ### A process with two live patches, applied at the times 99 and 100 -/

/-- The process of topic Status, with the text of a version at 7000. -/
def demo (s : String) : Proc := { Status.demo with mem := fun a => if 7000 ≤ a then s.toUTF8.toList[a - 7000]?.getD 0 else Status.demo.mem a }

theorem demo_word (s : String) (k : Nat) (h : k < 64) : WordReadable (demo s) 7000 k := by
  intro i hi
  simp only [demo, Status.demo, decide_eq_true_eq]
  omega

theorem demo_list : Patches (demo "0.3.17") (Text.triplet 0 3 17) 4200 Status.demoPatches :=
  .cons (lib := 4400) (container := 4500) (next := 4300) (by decide) (by decide +kernel) (by decide +kernel) (by decide) (by decide +kernel) (by decide +kernel) (by decide)
    (by decide +kernel) (by decide +kernel) (by decide +kernel) (by decide +kernel)
    (.cons (lib := 4420) (container := 4540) (next := 0) (by decide) (by decide +kernel) (by decide +kernel) (by decide) (by decide +kernel) (by decide +kernel) (by decide)
      (by decide +kernel) (by decide +kernel) (by decide +kernel) (by decide +kernel) .nil)

theorem demo_state : State (demo "0.3.17") { Status.demoPulp with version := Text.triplet 0 3 17 } Status.demoPatches :=
  ⟨by decide, by decide +kernel, 4200, by decide +kernel, demo_list⟩

theorem demo_list' : Patches (demo "0.3.17-rc1") (Text.triplet 0 3 17) 4200 Status.demoPatches :=
  .cons (lib := 4400) (container := 4500) (next := 4300) (by decide) (by decide +kernel) (by decide +kernel) (by decide) (by decide +kernel) (by decide +kernel) (by decide)
    (by decide +kernel) (by decide +kernel) (by decide +kernel) (by decide +kernel)
    (.cons (lib := 4420) (container := 4540) (next := 0) (by decide) (by decide +kernel) (by decide +kernel) (by decide) (by decide +kernel) (by decide +kernel) (by decide)
      (by decide +kernel) (by decide +kernel) (by decide +kernel) (by decide +kernel) .nil)

theorem demo_state' : State (demo "0.3.17-rc1") { Status.demoPulp with version := Text.triplet 0 3 17 } Status.demoPatches :=
  ⟨by decide, by decide +kernel, 4200, by decide +kernel, demo_list'⟩

def demoSelf : Object := ⟨"/lib/libpulp.so.0".toUTF8.toList, [], 0, 5000, 5100, 2⟩

theorem demo_counts : ∀ o ∈ [Status.demoLibc] ++ demoSelf :: [Status.demoLibm], Patched Status.demoPatches o ∨ 0 < o.count := by
  intro o ho
  right
  revert o
  decide

/-- Version 0.3.17: `one.so` is shown with its time. -/
example : ∃ N, ∀ fuel, N ≤ fuel → ∃ out, print .x86_64 (demo "0.3.17") Status.demoPulp 7000 (List.replicate 32 170) "prog".toUTF8.toList
    [Status.demoLibc] demoSelf [Status.demoLibm] false true fuel = some (.ok out) ∧ .patch (getBasename "/lp/one.so".toUTF8.toList) (some 99) ∈ out :=
  C208_times_shown_partial (a := 0) (b := 3) (c := 17) (by omega) (by omega) (by omega)
    (by rw [Version.text_eq]; exact ⟨by unfold At; decide +kernel, by decide +kernel⟩)
    (fun k hk => demo_word _ k (by rw [Version.text_eq] at hk; have : Version.demoText.length = 6 := by decide +kernel
                                   omega)) _ (by decide) demo_state _ _ _ _ demo_counts false true
    (x := Status.demoPatches[0]) (by simp) (o := Status.demoLibc) (by simp) ((Status.isBase_iff _ _).mpr (by decide +kernel))

/-- Version 0.3.17-rc1, the same live patches with the same times: none is shown. -/
example := C208_suffix (arch := .x86_64) (p := demo "0.3.17-rc1") (l := Status.demoPulp) (at_ := 7000) (a := 0) (b := 3) (last := "17-rc1".toUTF8.toList)
  (by omega) (by omega) (by decide +kernel) (.inr ⟨45, by decide +kernel, by decide⟩)
  (by rw [Version.demo_suffix]; exact ⟨by unfold At; decide +kernel, by decide +kernel⟩) (by rw [Version.demo_suffix]; decide +kernel)
  (fun k hk => demo_word _ k (by rw [Version.demo_suffix] at hk; have : ("0.3.17-rc1".toUTF8.toList).length = 10 := by decide +kernel
                                 omega)) (List.replicate 32 170) (by decide) demo_state' "prog".toUTF8.toList [Status.demoLibc] demoSelf [Status.demoLibm]
  demo_counts false true

end Verif.Loadtime
