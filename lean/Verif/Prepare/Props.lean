import Verif.Prepare.Spec
import Verif.Metadata.Props
import Verif.BuildId.Props

/-!
C127–C129: what `ulp trigger` checks before it touches a process, and which path it sends.
-/

namespace Verif.Prepare

open Spec Metadata
open Metadata.Spec (Good IsApply IsRevert cstring UnitIs All₂ GoodStr)

theorem compatible_iff (t : Target) : compatible t = true ↔ NotNewer t := by
  unfold compatible NotNewer queueVersion currVersion
  match h : t.queue with
  | none => simp
  | some none => simp
  | some (some v) => simp

theorem procPrefix_eq : procPrefix = "/1/root/".toUTF8.toList := by decide +kernel

/-- The prefix after `adjust_prefix_for_chroot`. -/
theorem adjustPrefix_eq (t : Target) (u : Option Str) (hu : t.procRoot = true → (u.getD []).length < 4088) :
    ∃ p, adjustPrefix t u = some p ∧ ∀ real, p.getD [] ++ real = pathFor t.procRoot u real := by
  unfold adjustPrefix pathFor
  cases hr : t.procRoot with
  | false => exact ⟨u, by simp, by simp⟩
  | true =>
    have hu := hu hr
    cases u with
    | none => exact ⟨_, rfl, by simp [procPrefix_eq]⟩
    | some u =>
      have hu : u.length < 4088 := hu
      have ht : u.take (pathMax - 1) = u := List.take_of_length_le (by unfold pathMax; omega)
      have hl : ¬ (procPrefix ++ u).length + 1 > pathMax := by simp [procPrefix, pathMax]; omega
      refine ⟨some (procPrefix ++ u), ?_, by simp [procPrefix_eq]⟩
      simp only [if_true, ht, hl, if_false]

theorem pathFor_nul (r : Bool) (u : Option Str) (real : Str) (h0 : (0 : UInt8) ∉ real) (hu0 : (0 : UInt8) ∉ u.getD []) :
    (0 : UInt8) ∉ pathFor r u real := by
  have hp : (0 : UInt8) ∉ "/1/root/".toUTF8.toList := by decide +kernel
  unfold pathFor
  intro h
  rcases List.mem_append.1 h with h | h
  · rcases List.mem_append.1 h with h | h
    · cases r with
      | false => exact absurd h (by simp)
      | true => exact hp h
    · exact hu0 h
  · exact h0 h

theorem containerPath_eq (h : Host) (p : Option Str) (container : Str) (hp : (p.getD []).length < 4096) :
    containerPath h p container = some (p.getD [] ++ (h.realpath container).getD container) := by
  unfold containerPath pathMax
  cases p with
  | none => rfl
  | some p =>
    have : ¬ p.length ≥ 4096 := by simpa using hp
    simp [this]

theorem unitsIn_eq (syms : List Str) (us : List Metadata.PUnit) (vs : List Unit') (h : All₂ UnitIs us vs) :
    unitsIn syms us = some (decide (∀ v ∈ vs, v.newFname ∈ syms)) := by
  induction us generalizing vs with
  | nil =>
    have : vs = [] := List.length_eq_zero_iff.1 h.1.symm
    subst this
    simp [unitsIn]
  | cons u us ih =>
    cases vs with
    | nil => exact absurd h.1 (by simp)
    | cons v vs =>
      have h0 : UnitIs u v := h.2 0 (by simp) (by simp)
      have ht : All₂ UnitIs us vs := by
        refine ⟨by simpa using h.1, fun i h1 h2 => ?_⟩
        have := h.2 (i + 1) (by simp; omega) (by simp; omega)
        simpa using this
      rw [unitsIn, h0.2.1]
      simp only
      by_cases hm : v.newFname ∈ syms
      · rw [if_pos hm, ih vs ht]
        simp [hm]
      · rw [if_neg hm]
        simp [hm]

theorem functionsMatch_eq (h : Host) (p : Option Str) (q : Parsed) (pt : Patch) (real : Str)
    (hf : cstring q.soFilename = some (p.getD [] ++ real)) (hu : All₂ UnitIs q.units pt.units) :
    ∃ m, functionsMatch h p q = some m ∧ (m = true ↔ HasFunctions h real pt) := by
  unfold functionsMatch
  rw [hf]
  simp only [List.take_left', List.drop_left', if_true]
  cases hs : h.symbols real with
  | none => exact ⟨false, rfl, by simp [HasFunctions, hs]⟩
  | some syms => exact ⟨_, unitsIn_eq syms _ _ hu, by simp [HasFunctions, hs]⟩

/-- `check_patch_sanity` in terms of the patch. -/
theorem sanity_eq (h : Host) (t : Target) (p : Option Str) (q : Parsed) (pt : Patch) (real : Str)
    (hf : cstring q.soFilename = some (p.getD [] ++ real)) (hu : All₂ UnitIs q.units pt.units)
    (hn : cstring q.name = some pt.name) (hb : q.buildId = pt.buildId) (h20 : pt.buildId.length = 20) :
    ∃ e, sanity h t p q = .ret e ∧
      (e = 0 ↔ HasFunctions h real pt ∧ LoadedExactly t pt) ∧
      (e = EUNKNOWN ↔ ¬ HasFunctions h real pt) ∧
      (e = EBUILDID ↔ HasFunctions h real pt ∧ Loaded t pt ∧ ¬ LoadedExactly t pt) ∧
      (e = ENOTARGETLIB ↔ HasFunctions h real pt ∧ ¬ Loaded t pt) := by
  obtain ⟨m, hm, hmi⟩ := functionsMatch_eq h p q pt real hf hu
  unfold sanity
  rw [hm, hn, hb]
  simp only
  cases m with
  | false =>
    have hno : ¬ HasFunctions h real pt := fun hh => by have := hmi.2 hh; simp at this
    refine ⟨EUNKNOWN, BuildId.C27_functions_must_match _ _ _, ?_⟩
    simp [hno, EUNKNOWN, EBUILDID, ENOTARGETLIB]
  | true =>
    have hyes : HasFunctions h real pt := hmi.1 rfl
    obtain ⟨e, he, h0, h1, h2⟩ := BuildId.C27_check_patch_sanity_partial pt.name pt.buildId h20 t.objs
    refine ⟨e, he, ?_, ?_, ?_, ?_⟩
    · rw [h0]; simp [hyes, LoadedExactly]
    · simp only [hyes, not_true, iff_false]
      intro hk
      by_cases hl : Loaded t pt
      · by_cases hx : LoadedExactly t pt
        · rw [h0.2 hx] at hk; exact absurd hk (by decide)
        · have := h1.2 ⟨hl, fun d hd hdn hdb => hx ⟨d, hd, hdn, hdb⟩⟩
          rw [this] at hk; exact absurd hk (by decide)
      · have := h2.2 (fun d hd hdn => hl ⟨d, hd, hdn⟩)
        rw [this] at hk; exact absurd hk (by decide)
    · rw [h1]
      simp only [hyes, true_and, Loaded, LoadedExactly]
      refine and_congr Iff.rfl ⟨?_, ?_⟩
      · rintro hh ⟨d, hd, hdn, hdb⟩; exact hh d hd hdn hdb
      · intro hh d hd hdn hdb; exact hh ⟨d, hd, hdn, hdb⟩
    · rw [h2]
      simp only [hyes, true_and, Loaded]
      refine ⟨?_, ?_⟩
      · rintro hh ⟨d, hd, hdn⟩; exact hh d hd hdn
      · intro hh d hd hdn; exact hh ⟨d, hd, hdn⟩

/-- What holds of a live patch `pt` with section `data`, metadata `out` for the process at path `path`. -/
theorem prepare_eq (h : Host) (t : Target) (u : Option Str) (container : Str) (revert : Bool) (c0 : Bytes) (data out : Bytes)
    (real : Str) (hreal : (h.realpath container).getD container = real) (hq : NotNewer t)
    (hd : h.ulp container revert = some data)
    (hlen : (pathFor t.procRoot u real).length + 1 < 4096) (hne : real ≠ [])
    (hx : extract data (pathFor t.procRoot u real) = .ok out) (q : Parsed) (st : St)
    (hp : parse (mem out) c0 = .ok (q, st)) :
    ∃ p, adjustPrefix t u = some p ∧ p.getD [] ++ real = pathFor t.procRoot u real ∧
      prepare h t u container revert c0 = match sanity h t p q with
        | .ub => .ub
        | .ret e => if e = 0 then .ready out q else .err e := by
  have hr : 1 ≤ real.length := by cases real with | nil => exact absurd rfl hne | cons _ _ => simp
  have hl0 : (pathFor t.procRoot u real).length = (if t.procRoot then 8 else 0) + (u.getD []).length + real.length := by
    unfold pathFor
    have : ("/1/root/".toUTF8.toList).length = 8 := by decide +kernel
    cases t.procRoot <;> simp only [List.length_append, this, if_true, if_false, Bool.false_eq_true, List.length_nil]
  obtain ⟨p, ha, hpath⟩ := adjustPrefix_eq t u (by
    intro hpr; rw [if_pos hpr] at hl0; omega)
  have hpl : (p.getD []).length < 4096 := by
    have := congrArg List.length (hpath real)
    rw [List.length_append] at this
    omega
  refine ⟨p, ha, hpath real, ?_⟩
  unfold prepare
  rw [(compatible_iff t).2 hq]
  simp only [Bool.not_true, Bool.false_eq_true, if_false, ha, hd, containerPath_eq h p container hpl, hreal, hpath real, hx]
  have hp : parse ⟨out, fun _ _ => true⟩ c0 = .ok (q, st) := hp
  simp only [hp]
  cases sanity h t p q <;> rfl

/-- **C127, C128.** A live patch is sent to the process exactly if its functions are in the container and the process has loaded the
library it was made for; otherwise the process is not touched, and the error says which of the two it was.  What is sent is
read by the process as the patch, at the path of the container seen from the process. -/
theorem C127_apply_partial (h : Host) (t : Target) (u : Option Str) (container real : Str) (c0 : Bytes) (pt : Patch) (hg : Good pt)
    (h20 : pt.buildId.length = 20) (hreal : (h.realpath container).getD container = real) (hne : real ≠ [])
    (h0 : (0 : UInt8) ∉ real) (hu0 : (0 : UInt8) ∉ u.getD []) (hq : NotNewer t)
    (hd : h.ulp container false = some (packApply pt))
    (hlen : (pathFor t.procRoot u real).length + 1 < 4096)
    (hs : (packApply pt).length + (pathFor t.procRoot u real).length + 5 < 512 * 1024) :
    (HasFunctions h real pt ∧ LoadedExactly t pt →
      ∃ out q, prepare h t u container false c0 = .ready out q ∧ IsApply q pt (pathFor t.procRoot u real) ∧
        ∀ rest c1, ∃ q' st, parse (mem (out ++ rest)) c1 = .ok (q', st) ∧ IsApply q' pt (pathFor t.procRoot u real)) ∧
    (¬ (HasFunctions h real pt ∧ LoadedExactly t pt) →
      ∃ e, prepare h t u container false c0 = .err e ∧
        (e = EUNKNOWN ↔ ¬ HasFunctions h real pt) ∧
        (e = EBUILDID ↔ HasFunctions h real pt ∧ Loaded t pt ∧ ¬ LoadedExactly t pt) ∧
        (e = ENOTARGETLIB ↔ HasFunctions h real pt ∧ ¬ Loaded t pt)) := by
  have h0p := pathFor_nul t.procRoot u real h0 hu0
  have hnep : pathFor t.procRoot u real ≠ [] := by unfold pathFor; simp [hne]
  obtain ⟨out, hx⟩ := C13_extract_succeeds hg hlen hs
  obtain ⟨q, st, hp, hi, -⟩ := C13_roundtrip hg h0p hnep hx [] c0
  rw [List.append_nil] at hp
  obtain ⟨p, -, hpath, hpr⟩ := prepare_eq h t u container false c0 _ out real hreal hq hd hlen hne hx q st hp
  obtain ⟨e, he, e0, e1, e2, e3⟩ := sanity_eq h t p q pt real (by rw [hpath]; exact hi.path) hi.units hi.name hi.buildId h20
  rw [hpr, he]
  simp only
  constructor
  · intro hfit
    rw [if_pos (e0.2 hfit)]
    refine ⟨out, q, rfl, hi, fun rest c1 => ?_⟩
    obtain ⟨q', st', h1, h2, -⟩ := C13_roundtrip hg h0p hnep hx rest c1
    exact ⟨q', st', h1, h2⟩
  · intro hfit
    rw [if_neg (fun hh => hfit (e0.1 hh))]
    exact ⟨e, rfl, e1, e2, e3⟩

/-- **C127, reverting.** To revert, the container needs no functions: the request is sent exactly if the container can be read and the
process has loaded the library the patch was made for. -/
theorem C127_revert_partial (h : Host) (t : Target) (u : Option Str) (container real : Str) (c0 : Bytes) (pt : Patch) (hg : Good pt)
    (h20 : pt.buildId.length = 20) (hreal : (h.realpath container).getD container = real) (hne : real ≠ [])
    (h0 : (0 : UInt8) ∉ real) (hu0 : (0 : UInt8) ∉ u.getD []) (hq : NotNewer t)
    (hd : h.ulp container true = some (packRevert pt))
    (hlen : (pathFor t.procRoot u real).length + 1 < 4096)
    (hs : (packRevert pt).length + (pathFor t.procRoot u real).length + 5 < 512 * 1024) :
    ((h.symbols real).isSome ∧ LoadedExactly t pt →
      ∃ out q, prepare h t u container true c0 = .ready out q ∧ IsRevert q pt (pathFor t.procRoot u real) ∧
        ∀ rest c1, ∃ q' st, parse (mem (out ++ rest)) c1 = .ok (q', st) ∧ IsRevert q' pt (pathFor t.procRoot u real)) ∧
    (¬ ((h.symbols real).isSome ∧ LoadedExactly t pt) → ∃ e, prepare h t u container true c0 = .err e) := by
  have h0p := pathFor_nul t.procRoot u real h0 hu0
  have hnep : pathFor t.procRoot u real ≠ [] := by unfold pathFor; simp [hne]
  have h33 : 33 ≤ (packRevert pt).length := by
    unfold packRevert
    rw [List.length_append, List.length_append, hg.id]
    simp
  obtain ⟨out, hx⟩ := extract_small h33 hlen hs
  obtain ⟨q, st, hp, hi, -⟩ := C14_revert_roundtrip hg h0p hnep hx [] c0
  rw [List.append_nil] at hp
  obtain ⟨p, -, hpath, hpr⟩ := prepare_eq h t u container true c0 _ out real hreal hq hd hlen hne hx q st hp
  let pt' : Patch := { pt with units := [] }
  obtain ⟨e, he, e0, -⟩ := sanity_eq h t p q pt' real (by rw [hpath]; exact hi.path)
    (by rw [hi.units]; exact ⟨rfl, fun i h1 => absurd h1 (by simp)⟩) hi.name hi.buildId h20
  have hfit : (HasFunctions h real pt' ∧ LoadedExactly t pt') ↔ ((h.symbols real).isSome ∧ LoadedExactly t pt) := by
    refine and_congr ?_ Iff.rfl
    simp [HasFunctions, pt', Option.isSome_iff_exists]
  rw [hfit] at e0
  rw [hpr, he]
  simp only
  constructor
  · intro hf
    rw [if_pos (e0.2 hf)]
    refine ⟨out, q, rfl, hi, fun rest c1 => ?_⟩
    obtain ⟨q', st', h1, h2, -⟩ := C14_revert_roundtrip hg h0p hnep hx rest c1
    exact ⟨q', st', h1, h2⟩
  · intro hf
    rw [if_neg (fun hh => hf (e0.1 hh))]
    exact ⟨e, rfl⟩

/-- **C127 is false in general.** A path that is too long for the process is refused as if the container had no metadata. -/
theorem C127_long_path (h : Host) (t : Target) (u : Option Str) (container real : Str) (revert : Bool) (c0 data : Bytes)
    (hreal : (h.realpath container).getD container = real) (hq : NotNewer t) (hd : h.ulp container revert = some data)
    (hpr : t.procRoot = false) (hlen : 4096 ≤ (pathFor t.procRoot u real).length + 1) :
    prepare h t u container revert c0 = .err ENOMETA := by
  have ha : adjustPrefix t u = some u := by simp [adjustPrefix, hpr]
  unfold prepare
  rw [(compatible_iff t).2 hq, ha, hd]
  simp only [Bool.not_true, Bool.false_eq_true, if_false]
  by_cases hp : (u.getD []).length < 4096
  · rw [containerPath_eq h u container hp, hreal]
    have e : pathFor t.procRoot u real = u.getD [] ++ real := by simp [pathFor, hpr]
    rw [e] at hlen
    have : extract data (u.getD [] ++ real) = .err 0 := by
      unfold extract
      have : (u.getD [] ++ real).length + 1 ≥ Metadata.pathMax := by unfold Metadata.pathMax; omega
      simp only [this, if_true]
    simp [this]
  · cases u with
    | none => simp at hp
    | some u =>
      have : u.length ≥ pathMax := by unfold pathMax; simpa using hp
      simp [containerPath, this]

/-- **C127 is false in general.** For a process whose root is /proc a long `--root` overflows the buffer of the tool. -/
theorem C127_overflow (h : Host) (t : Target) (u container : Str) (revert : Bool) (c0 : Bytes) (hq : NotNewer t)
    (hpr : t.procRoot = true) (hlen : 4088 ≤ u.length) : prepare h t (some u) container revert c0 = .ub := by
  have : adjustPrefix t (some u) = none := by
    unfold adjustPrefix
    have : (procPrefix ++ u.take (pathMax - 1)).length + 1 > pathMax := by
      simp [procPrefix, pathMax]; omega
    simp only [hpr, if_true, this]
  unfold prepare
  rw [(compatible_iff t).2 hq, this]
  rfl

/-- **C128.** A process whose instruction queue is newer than the tool is left alone, whatever the live patch is; for all others the
queue plays no role here. -/
theorem C128_newer (h : Host) (t : Target) (u : Option Str) (container : Str) (revert : Bool) (c0 : Bytes) :
    (¬ NotNewer t → prepare h t u container revert c0 = .err EOLDULP) ∧
    (NotNewer t → prepare h t u container revert c0 = prepare h { t with queue := none } u container revert c0) := by
  constructor
  · intro hn
    have : compatible t = false := by
      cases hc : compatible t with
      | false => rfl
      | true => exact absurd ((compatible_iff t).1 hc) hn
    unfold prepare
    rw [this]
    rfl
  · intro hn
    have h1 := (compatible_iff t).2 hn
    have h2 : compatible { t with queue := none } = true := rfl
    unfold prepare
    rw [h1, h2]
    rfl

/-! ### Cases -/

def b (s : String) : Str := s.toUTF8.toList

/-- A small patch. -/
def exPatch : Patch where
  patchId := List.replicate 32 7
  buildId := List.replicate 20 9
  name := b "/lib/libc.so.6"
  units := [⟨b "old", b "new", 64⟩]
  deps := []
  refs := []

def exHost : Host where
  realpath := fun _ => some (b "/lp/a.so")
  ulp := fun _ r => some (if r then packRevert exPatch else packApply exPatch)
  symbols := fun f => if f = b "/lp/a.so" then some [b "new", b "other"] else none

def exTarget (proc : Bool) (id : UInt8) : Target where
  queue := some (some 1)
  procRoot := proc
  objs := [⟨b "/usr/lib/libm.so.6", List.replicate 20 9⟩, ⟨b "/usr/lib/libc.so.6", List.replicate 20 id⟩]

theorem exGood : Good exPatch := by
  refine ⟨by decide +kernel, by decide +kernel, ⟨by decide +kernel, by decide +kernel⟩, by decide +kernel, ?_, by decide +kernel,
    by simp [exPatch], by decide +kernel, by simp [exPatch]⟩
  intro u hu
  simp [exPatch] at hu
  subst hu
  exact ⟨⟨by decide +kernel, by decide +kernel⟩, ⟨by decide +kernel, by decide +kernel⟩, by decide +kernel⟩

/-- The case for C127: a process in /proc, with `--root /snap`. -/
example := (C127_apply_partial exHost (exTarget true 9) (some (b "/snap")) (b "a.so") (b "/lp/a.so") [] exPatch exGood (by decide +kernel)
  rfl (by decide +kernel) (by decide +kernel) (by decide +kernel) (by intro v hv; cases hv; decide) rfl (by decide +kernel)
  (by decide +kernel)).1
  ⟨⟨[b "new", b "other"], by decide +kernel, by decide +kernel⟩, ⟨_, List.mem_cons_of_mem _ (List.mem_cons_self ..), by decide +kernel, by decide +kernel⟩⟩

example : pathFor true (some (b "/snap")) (b "/lp/a.so") = b "/1/root//snap/lp/a.so" := by decide +kernel

/-- The case for C127: the library has another build id. -/
example : prepare exHost (exTarget false 8) none (b "a.so") false [] = .err EBUILDID ∧
    prepare { exHost with symbols := fun _ => some [b "other"] } (exTarget false 9) none (b "a.so") false [] = .err EUNKNOWN ∧
    prepare exHost { exTarget false 9 with queue := some (some 2) } none (b "a.so") true [] = .err EOLDULP := by decide +kernel

example := (C127_revert_partial exHost (exTarget false 9) none (b "a.so") (b "/lp/a.so") [] exPatch exGood (by decide +kernel)
  rfl (by decide +kernel) (by decide +kernel) (by decide +kernel) (by intro v hv; cases hv; decide) rfl (by decide +kernel)
  (by decide +kernel)).1
  ⟨by decide +kernel, ⟨_, List.mem_cons_of_mem _ (List.mem_cons_self ..), by decide +kernel, by decide +kernel⟩⟩

example := C127_long_path exHost (exTarget false 9) none (b "a.so") (List.replicate 4095 97) false [] (packApply exPatch)
example := C127_overflow exHost (exTarget true 9) (List.replicate 4088 97) (b "a.so") false [] (by intro v hv; cases hv; decide) rfl
  (Nat.le_of_eq List.length_replicate.symm)
example := (C128_newer exHost { exTarget true 9 with queue := some (some 2) } none (b "a.so") false []).1 (fun h => absurd (h 2 rfl) (by decide))

end Verif.Prepare
