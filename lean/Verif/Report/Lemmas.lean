import Verif.Report.Spec

namespace Verif.Report

open Verif.Trigger (skippableError)

theorem minor_iff (r : Result) : minor r.err = true ↔ r.notForProcess := by
  unfold minor Result.notForProcess EBUILDID ENOTARGETLIB
  simp only [Bool.or_eq_true, beq_iff_eq]
  constructor
  · rintro (h | h)
    · left; exact BitVec.eq_of_toNat_eq h
    · right; exact BitVec.eq_of_toNat_eq h
  · rintro (h | h) <;> rw [h] <;> simp

theorem skippable_iff (r : Result) : skippableError r.err = true ↔ r.countedSkipped := by
  unfold skippableError Result.countedSkipped EBUILDID ENOTARGETLIB EUSRBLOCKED EWILDNOMATCH EAPPLIED
    ENOPATCH ESRCH
  simp only [Bool.or_eq_true, beq_iff_eq, or_assoc]
  have key : ∀ n : Nat, n < 2 ^ 32 → (r.err.toNat = n ↔ r.err = BitVec.ofNat 32 n) := by
    intro n hn
    constructor
    · intro h; apply BitVec.eq_of_toNat_eq; rw [h]; simp; omega
    · intro h; rw [h]; simp; omega
  rw [key 257 (by omega), key 276 (by omega), key 280 (by omega), key 279 (by omega), key 275 (by omega),
    key 284 (by omega), key 3 (by omega)]

/-- The results that are not minor. -/
def imp (rs : List Result) : List Result := rs.filter fun r => !minor r.err

theorem zero_not_minor {e : BitVec 32} (h : e = 0#32) : minor e = false := by subst h; decide

theorem scan_eq (rs : List Result) (err : BitVec 32) (hide : Bool) :
    scan rs err hide =
      (((imp rs).getLast?.map (·.err)).getD err, hide || !(imp rs).isEmpty) := by
  induction rs generalizing err hide with
  | nil => simp [scan, imp]
  | cons r rs ih =>
    unfold scan
    by_cases h : minor r.err = true
    · rw [if_neg (by rintro (h0 | h0); · rw [zero_not_minor h0] at h; simp at h
                     · rw [h] at h0; simp at h0), ih]
      have : imp (r :: rs) = imp rs := by simp [imp, h]
      rw [this]
    · have hf : minor r.err = false := by simpa using h
      rw [if_pos (Or.inr hf), ih]
      have : imp (r :: rs) = r :: imp rs := by simp [imp, hf]
      rw [this]
      cases hi : imp rs with
      | nil => simp
      | cons x xs => simp [List.getLast?_cons]

/-- Without important results: nothing is chosen, and the report is condensed if all errors agree. -/
theorem condense_minor (err : BitVec 32) (rs : List Result) (s : Bool) (h : ∀ r ∈ rs, minor r.err = true) :
    condense err false rs s none = (s && rs.all (fun r => decide (r.err = err)), none) := by
  induction rs generalizing s with
  | nil => simp [condense]
  | cons r rs ih =>
    have hr := h r (by simp)
    have ih' := fun s => ih s (fun r' h' => h r' (by simp [h']))
    unfold condense
    rw [if_neg (by simp)]
    by_cases he : r.err = err
    · rw [if_neg (by simpa using he), if_neg (by simp [hr]), ih']
      simp [he]
    · rw [if_pos (by simpa using he), ih']
      simp [he]

theorem condense_ne {err : BitVec 32} {r : Result} (hr : minor r.err = false) (he : r.err ≠ err)
    (rs : List Result) (s : Bool) (c : Option Result) :
    condense err true (r :: rs) s c = condense err true rs false c := by
  rw [condense]; simp [hr, he]

theorem condense_eq {err : BitVec 32} {r : Result} (hr : minor r.err = false) (he : r.err = err)
    (rs : List Result) (s : Bool) (c : Option Result) :
    condense err true (r :: rs) s c =
      condense err true rs (if c.isSome then false else s) (if c.isSome then c else some r) := by
  rw [condense]; simp only [hr, he, Bool.false_eq_true, and_false, ne_eq, not_true, if_false]
  rw [he] at hr
  simp [hr]

/-- With important results: only they count. -/
theorem condense_hide (err : BitVec 32) (rs : List Result) (s : Bool) (c : Option Result) :
    condense err true rs s c = condense err true (imp rs) s c := by
  induction rs generalizing s c with
  | nil => rfl
  | cons r rs ih =>
    by_cases hm : minor r.err = true
    · have : imp (r :: rs) = imp rs := by simp [imp, hm]
      rw [this, condense, if_pos ⟨rfl, hm⟩, ih]
    · have hf : minor r.err = false := by simpa using hm
      have : imp (r :: rs) = r :: imp rs := by simp [imp, hf]
      rw [this]
      by_cases he : r.err = err
      · rw [condense_eq hf he, condense_eq hf he, ih]
      · rw [condense_ne hf he, condense_ne hf he, ih]

/-- Once something was chosen it stays, and a further result spoils the condensed form. -/
theorem condense_some (err : BitVec 32) (rs : List Result) (s : Bool) (c : Result)
    (h : ∀ r ∈ rs, minor r.err = false) :
    condense err true rs s (some c) = (s && rs.isEmpty, some c) := by
  induction rs generalizing s with
  | nil => simp [condense]
  | cons r rs ih =>
    have hr := h r (by simp)
    have ih' := fun s => ih s (fun r' h' => h r' (by simp [h']))
    by_cases he : r.err = err
    · rw [condense_eq hr he]
      simp only [Option.isSome_some, if_true]
      rw [ih']; simp
    · rw [condense_ne hr he, ih']; simp

/-- A spoilt condensed form stays spoilt. -/
theorem condense_false (err : BitVec 32) (rs : List Result) (c : Option Result)
    (h : ∀ r ∈ rs, minor r.err = false) : (condense err true rs false c).1 = false := by
  induction rs generalizing c with
  | nil => simp [condense]
  | cons r rs ih =>
    have hr := h r (by simp)
    have ih' := fun c => ih c (fun r' h' => h r' (by simp [h']))
    by_cases he : r.err = err
    · rw [condense_eq hr he]
      have : (if c.isSome = true then false else false) = false := by simp
      rw [this]
      exact ih' _
    · rw [condense_ne hr he]; exact ih' _

theorem imp_not_minor (rs : List Result) : ∀ r ∈ imp rs, minor r.err = false := by
  intro r hr; simpa [imp] using (List.mem_filter.mp hr).2

/-- The whole function, by the number of important results. -/
theorem print_none {rs : List Result} (h : imp rs = []) (sm : Bool) :
    print rs sm = if (∀ r ∈ rs, r.err = firstErr rs) then []
      else .header :: rs.map fun r => .skipped r.name r.err := by
  have hm : ∀ r ∈ rs, minor r.err = true := by
    intro r hr
    by_cases h1 : minor r.err = true
    · exact h1
    · have : r ∈ imp rs := List.mem_filter.mpr ⟨hr, by simpa using h1⟩
      rw [h] at this; simp at this
  unfold print
  rw [scan_eq, h]
  simp only [List.getLast?_nil, Option.map_none, Option.getD_none, List.isEmpty_nil, Bool.not_true,
    Bool.or_false]
  rw [condense_minor _ _ _ hm]
  simp only [Bool.true_and, true_and]
  by_cases ha : ∀ r ∈ rs, r.err = firstErr rs
  · rw [if_pos ha, if_pos (by simpa [List.all_eq_true] using ha)]
  · rw [if_neg ha]
    have hf : (rs.all fun r => decide (r.err = firstErr rs)) = false := by
      rw [Bool.eq_false_iff]
      intro h'
      exact ha (by simpa [List.all_eq_true] using h')
    rw [hf, if_neg (by simp)]
    have hl : rs.filterMap (longLine false) = rs.map fun r => Out.skipped r.name r.err := by
      clear ha hf h
      induction rs with
      | nil => rfl
      | cons r rs ih =>
        have : longLine false r = some (.skipped r.name r.err) := by
          simp [longLine, hm r (by simp)]
        rw [List.filterMap_cons, this, ih (fun r' h' => hm r' (by simp [h']))]
        rfl
    cases sm <;> simp [hl]

theorem print_one {rs : List Result} {r : Result} (h : imp rs = [r]) (sm : Bool) :
    print rs sm = if sm then [.header, shortLine r.err (some r)]
      else .header :: rs.filterMap (longLine false) := by
  have hr := imp_not_minor rs r (by rw [h]; simp)
  unfold print
  rw [scan_eq, h]
  simp only [List.getLast?_singleton, Option.map_some, Option.getD_some, List.isEmpty_cons, Bool.not_false,
    Bool.or_true]
  rw [condense_hide, h]
  have : condense r.err true [r] true none = (true, some r) := by
    rw [condense_eq hr rfl]; rfl
  rw [this]
  cases sm <;> simp

theorem print_many {rs : List Result} (h : 2 ≤ (imp rs).length) (sm : Bool) :
    print rs sm = .header :: rs.filterMap (longLine sm) := by
  have hn := imp_not_minor rs
  unfold print
  rw [scan_eq]
  have hne : imp rs ≠ [] := by intro h0; rw [h0] at h; simp at h
  have he : (imp rs).isEmpty = false := by simpa using hne
  simp only [he, Bool.not_false, Bool.or_true]
  rw [condense_hide]
  generalize (((imp rs).getLast?.map (·.err)).getD (firstErr rs)) = err
  have key : (condense err true (imp rs) true none).1 = false := by
    revert h hn
    generalize imp rs = l
    intro h hn
    match l, h with
    | a :: b :: l, _ =>
      have ha := hn a (by simp)
      have hb := hn b (by simp)
      have hl : ∀ r ∈ l, minor r.err = false := fun r hr => hn r (by simp [hr])
      have hbl : ∀ r ∈ b :: l, minor r.err = false := fun r hr => hn r (by simp at hr ⊢; right; exact hr)
      by_cases he : a.err = err
      · rw [condense_eq ha he]
        simp only [Option.isSome_none, Bool.false_eq_true, if_false]
        rw [condense_some _ _ _ _ hbl]
        simp
      · rw [condense_ne ha he]
        exact condense_false _ _ _ hbl
  rcases hc : condense err true (imp rs) true none with ⟨s, c⟩
  rw [hc] at key
  simp only at key
  subst key
  cases sm <;> simp

theorem imp_cases (rs : List Result) : imp rs = [] ∨ (∃ r, imp rs = [r]) ∨ 2 ≤ (imp rs).length := by
  rcases imp rs with _ | ⟨a, _ | ⟨b, l⟩⟩
  · left; rfl
  · right; left; exact ⟨a, rfl⟩
  · right; right; simp

theorem mem_imp {rs : List Result} {r : Result} : r ∈ imp rs ↔ r ∈ rs ∧ ¬ r.notForProcess := by
  unfold imp
  rw [List.mem_filter, ← minor_iff]; simp

theorem mem_long {rs : List Result} {hide : Bool} {o : Out} :
    o ∈ rs.filterMap (longLine hide) ↔ ∃ r ∈ rs, longLine hide r = some o := by
  simp [List.mem_filterMap]

end Verif.Report
