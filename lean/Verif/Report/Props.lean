import Verif.Report.Lemmas

/-! Properties C103-C105: what `ulp trigger` prints about a process. -/

namespace Verif.Report

open Verif.Trigger (skippableError flagOf)

/-- **C103** With or without summarisation, the report names a patch as applied if and only if it was,
and as failed with a certain error if and only if it failed with it (errors that do not count as
skipped). -/
theorem C103_report_names_applied_and_failed (rs : List Result) (sm : Bool) (name : Bytes) :
    (.success name ∈ print rs sm ↔ ⟨name, 0#32⟩ ∈ rs) ∧
    ∀ e : BitVec 32, e ≠ 0#32 → ¬ Result.countedSkipped ⟨name, e⟩ →
      (.failed name e ∈ print rs sm ↔ ⟨name, e⟩ ∈ rs) := by
  have hz : ¬ Result.notForProcess ⟨name, 0#32⟩ := by unfold Result.notForProcess; simp only; decide
  have hz' : ¬ Result.countedSkipped ⟨name, 0#32⟩ := by unfold Result.countedSkipped; simp only; decide
  -- the long form
  have hlong : ∀ hide, (.success name ∈ rs.filterMap (longLine hide) ↔ ⟨name, 0#32⟩ ∈ rs) ∧
      ∀ e : BitVec 32, e ≠ 0#32 → ¬ Result.countedSkipped ⟨name, e⟩ →
        (.failed name e ∈ rs.filterMap (longLine hide) ↔ ⟨name, e⟩ ∈ rs) := by
    intro hide
    constructor
    · rw [mem_long]
      constructor
      · rintro ⟨⟨n, e⟩, hr, hl⟩
        unfold longLine at hl
        split at hl
        · split at hl <;> simp at hl
        · split at hl
          · simp at hl
          · next h0 =>
            simp only [ne_eq, Decidable.not_not] at h0
            simp at hl
            rw [← hl, ← h0]; exact hr
      · intro h
        refine ⟨_, h, ?_⟩
        unfold longLine
        rw [if_neg (by rw [minor_iff]; exact hz), if_neg (by simp)]
    · intro e he hs
      have hm : ¬ Result.notForProcess ⟨name, e⟩ := by
        intro h; apply hs; unfold Result.countedSkipped; rcases h with h | h
        · exact Or.inl h
        · exact Or.inr (Or.inl h)
      rw [mem_long]
      constructor
      · rintro ⟨⟨n, e'⟩, hr, hl⟩
        unfold longLine at hl
        split at hl
        · split at hl <;> simp at hl
        · split at hl
          · simp at hl
            rw [← hl.1, ← hl.2]; exact hr
          · simp at hl
      · intro h
        refine ⟨_, h, ?_⟩
        unfold longLine
        rw [if_neg (by rw [minor_iff]; exact hm), if_pos (by simpa using he)]
  rcases imp_cases rs with h | ⟨r, h⟩ | h
  · -- only minor results
    have hno : ∀ r ∈ rs, r.notForProcess := by
      intro r hr
      by_cases hp : r.notForProcess
      · exact hp
      · have := mem_imp.mpr ⟨hr, hp⟩
        rw [h] at this; simp at this
    have h1 : ∀ e, ¬ Result.countedSkipped ⟨name, e⟩ → (⟨name, e⟩ : Result) ∉ rs := by
      intro e hs hin
      rcases hno _ hin with h | h
      · exact hs (Or.inl h)
      · exact hs (Or.inr (Or.inl h))
    rw [print_none h]
    constructor
    · constructor
      · split
        · simp
        · simp
      · intro hin; exact absurd hin (h1 _ hz')
    · intro e he hs
      constructor
      · split
        · simp
        · simp
      · intro hin; exact absurd hin (h1 _ hs)
  · rw [print_one h]
    cases sm with
    | false =>
      simp only [Bool.false_eq_true, if_false, List.mem_cons, reduceCtorEq, false_or]
      exact hlong false
    | true =>
      simp only [if_true, List.mem_cons, reduceCtorEq, false_or, List.not_mem_nil, or_false]
      have hin : ∀ e, ¬ Result.countedSkipped ⟨name, e⟩ → ((⟨name, e⟩ : Result) ∈ rs ↔ r = ⟨name, e⟩) := by
        intro e hs
        have hm : ¬ Result.notForProcess ⟨name, e⟩ := by
          intro h; apply hs; rcases h with h | h
          · exact Or.inl h
          · exact Or.inr (Or.inl h)
        have : (⟨name, e⟩ : Result) ∈ rs ↔ (⟨name, e⟩ : Result) ∈ imp rs := by
          rw [mem_imp]; exact ⟨fun h => ⟨h, hm⟩, fun h => h.1⟩
        rw [this, h, List.mem_singleton, eq_comm]
      rcases r with ⟨n, e'⟩
      constructor
      · rw [hin _ hz']
        unfold shortLine
        split
        · next hsk =>
          have hsk' := (skippable_iff ⟨n, e'⟩).mp hsk
          simp only [reduceCtorEq, Result.mk.injEq, false_iff]
          rintro ⟨-, h0⟩
          rw [h0] at hsk'
          exact absurd hsk' (by unfold Result.countedSkipped; simp only; decide)
        · split
          · next h0 => simp only [reduceCtorEq, Result.mk.injEq, false_iff]; exact fun h => h0 h.2
          · next h0 =>
            simp only [ne_eq, Decidable.not_not] at h0
            subst h0
            simp only [Out.success.injEq, Result.mk.injEq, and_true]
            exact eq_comm
      · intro e he hs
        rw [hin _ hs]
        unfold shortLine
        split
        · next hsk =>
          have hsk' := (skippable_iff ⟨n, e'⟩).mp hsk
          simp only [reduceCtorEq, Result.mk.injEq, false_iff]
          rintro ⟨-, h0⟩
          apply hs
          unfold Result.countedSkipped at hsk' ⊢
          rw [h0] at hsk'; exact hsk'
        · split
          · simp only [Out.failed.injEq, Result.mk.injEq]
            constructor
            · rintro ⟨h1, h2⟩; exact ⟨h1.symm, h2.symm⟩
            · rintro ⟨h1, h2⟩; exact ⟨h1.symm, h2.symm⟩
          · next h0 =>
            simp only [ne_eq, Decidable.not_not] at h0
            subst h0
            simp only [reduceCtorEq, Result.mk.injEq, false_iff]
            exact fun h => he h.2.symm
  · rw [print_many h]
    simp only [List.mem_cons, reduceCtorEq, false_or]
    exact hlong sm

/-- A patch applied, one failed (out of memory), one for another library. -/
def demo : List Result := [⟨[97], 276#32⟩, ⟨[98], 12#32⟩, ⟨[99], 0#32⟩]

example : .success [99] ∈ print demo true ∧ .failed [98] 12#32 ∈ print demo true :=
  ⟨(C103_report_names_applied_and_failed demo true [99]).1.mpr (by decide),
   ((C103_report_names_applied_and_failed demo true [98]).2 12#32 (by decide) (by decide)).mpr (by decide)⟩

example : print demo true = [.header, .failed [98] 12#32, .success [99]] := by decide

example : print [⟨[97], 276#32⟩, ⟨[99], 0#32⟩] true = [.header, .success [99]] := by decide

/-! ### C104 -/

theorem flag_failed (r : Result) : flagOf r.err = 4 ↔ r.err ≠ 0#32 ∧ ¬ r.countedSkipped := by
  unfold flagOf
  by_cases h0 : r.err = 0#32
  · simp [h0]
  · rw [if_neg h0, ← skippable_iff]
    by_cases hs : skippableError r.err = true
    · simp [hs]
    · simp [hs, h0]

/-- **C104** (partial: results that count as skipped have to be of the two minor kinds) The report
mentions a failure if and only if the process is counted as failed. -/
theorem C104_report_agrees_with_totals_partial (rs : List Result) (sm : Bool)
    (hk : ∀ r ∈ rs, r.countedSkipped → r.notForProcess) :
    (∃ o ∈ print rs sm, o.saysFailed = true) ↔ ∃ r ∈ rs, flagOf r.err = 4 := by
  constructor
  · rintro ⟨o, ho, hf⟩
    have hlong : ∀ hide, o ∈ rs.filterMap (longLine hide) → ∃ r ∈ rs, flagOf r.err = 4 := by
      intro hide ho
      obtain ⟨r, hr, hl⟩ := mem_long.mp ho
      refine ⟨r, hr, (flag_failed r).mpr ?_⟩
      unfold longLine at hl
      split at hl
      · split at hl
        · simp at hl
        · simp at hl; subst hl; simp [Out.saysFailed] at hf
      · next hm =>
        rw [minor_iff] at hm
        split at hl
        · next h0 => exact ⟨h0, fun h => hm (hk r hr h)⟩
        · simp at hl; subst hl; simp [Out.saysFailed] at hf
    rcases imp_cases rs with h | ⟨r, h⟩ | h
    · rw [print_none h] at ho
      split at ho
      · simp at ho
      · simp only [List.mem_cons, List.mem_map] at ho
        rcases ho with rfl | ⟨r, -, rfl⟩ <;> simp [Out.saysFailed] at hf
    · rw [print_one h] at ho
      cases sm with
      | false =>
        simp only [Bool.false_eq_true, if_false, List.mem_cons] at ho
        rcases ho with rfl | ho
        · simp [Out.saysFailed] at hf
        · exact hlong _ ho
      | true =>
        have hr : r ∈ rs ∧ ¬ r.notForProcess := mem_imp.mp (by rw [h]; simp)
        simp only [if_true, List.mem_cons, List.not_mem_nil, or_false] at ho
        rcases ho with rfl | rfl
        · simp [Out.saysFailed] at hf
        · refine ⟨r, hr.1, (flag_failed r).mpr ?_⟩
          unfold shortLine at hf
          split at hf
          · simp [Out.saysFailed] at hf
          · next hs =>
            rw [skippable_iff] at hs
            split at hf
            · next h0 => exact ⟨h0, hs⟩
            · simp [Out.saysFailed] at hf
    · rw [print_many h] at ho
      simp only [List.mem_cons] at ho
      rcases ho with rfl | ho
      · simp [Out.saysFailed] at hf
      · exact hlong _ ho
  · rintro ⟨⟨n, e⟩, hr, hf⟩
    obtain ⟨h0, hs⟩ := (flag_failed _).mp hf
    exact ⟨.failed n e, ((C103_report_names_applied_and_failed rs sm n).2 e h0 hs).mpr hr, rfl⟩

/-- **C104** fails: a patch that counts as skipped (such as one applied already) is reported as FAILED
as soon as another patch was applied or failed, or if summarisation is disabled. -/
theorem C104_skipped_reported_as_failed (rs : List Result) (sm : Bool) (r : Result) (hr : r ∈ rs)
    (hs : r.countedSkipped) (hn : ¬ r.notForProcess)
    (hother : sm = false ∨ ∃ r' ∈ rs, r' ≠ r ∧ ¬ r'.notForProcess) :
    .failed r.name r.err ∈ print rs sm ∧ flagOf r.err ≠ 4 := by
  have hi : r ∈ imp rs := mem_imp.mpr ⟨hr, hn⟩
  have h0 : r.err ≠ 0#32 := by
    intro h; unfold Result.countedSkipped at hs; rw [h] at hs; revert hs; decide
  have hlong : ∀ hide, .failed r.name r.err ∈ rs.filterMap (longLine hide) := by
    intro hide
    refine mem_long.mpr ⟨r, hr, ?_⟩
    unfold longLine
    rw [if_neg (by rw [minor_iff]; exact hn), if_pos h0]
  refine ⟨?_, fun h => ((flag_failed r).mp h).2 hs⟩
  rcases imp_cases rs with h | ⟨r', h⟩ | h
  · rw [h] at hi; simp at hi
  · rw [print_one h]
    rcases hother with rfl | ⟨x, hx, hne, hxn⟩
    · simp only [Bool.false_eq_true, if_false, List.mem_cons, reduceCtorEq, false_or]
      exact hlong _
    · exfalso
      have h1 : x ∈ imp rs := mem_imp.mpr ⟨hx, hxn⟩
      rw [h, List.mem_singleton] at h1 hi
      exact hne (h1.trans hi.symm)
  · rw [print_many h]
    simp only [List.mem_cons, reduceCtorEq, false_or]
    exact hlong _

/-- A patch applied already and a new one: "FAILED a: patch already applied", yet the process is counted
as patched and not as failed. -/
example : print [⟨[98], 0#32⟩, ⟨[97], 275#32⟩] true = [.header, .success [98], .failed [97] 275#32] := by
  decide

example : .failed [97] 275#32 ∈ print [⟨[98], 0#32⟩, ⟨[97], 275#32⟩] true ∧ flagOf 275#32 ≠ 4 :=
  C104_skipped_reported_as_failed _ true ⟨[97], 275#32⟩ (by decide) (by decide) (by decide)
    (Or.inr ⟨⟨[98], 0#32⟩, by decide, by decide, by decide⟩)

example : (∃ o ∈ print demo true, o.saysFailed = true) ↔ ∃ r ∈ demo, flagOf r.err = 4 :=
  C104_report_agrees_with_totals_partial demo true (by decide)

/-! ### C105 -/

/-- **C105** (partial: the results must not all be one and the same minor error) With
`--no-summarization` there is a line for every patch that was tried, in the order of the list. -/
theorem C105_every_patch_listed_partial (rs : List Result)
    (h : ∃ r ∈ rs, ¬ r.notForProcess ∨ r.err ≠ firstErr rs) :
    (print rs false).filterMap Out.about = rs.map (·.name) := by
  have hl : ∀ rs : List Result, (rs.filterMap (longLine false)).filterMap Out.about = rs.map (·.name) := by
    intro rs
    induction rs with
    | nil => rfl
    | cons r rs ih =>
      have : ∃ o, longLine false r = some o ∧ o.about = some r.name := by
        unfold longLine
        split
        · exact ⟨_, rfl, rfl⟩
        · split
          · exact ⟨_, rfl, rfl⟩
          · exact ⟨_, rfl, rfl⟩
      obtain ⟨o, h1, h2⟩ := this
      rw [List.filterMap_cons, h1]
      simp only
      rw [List.filterMap_cons, h2, ih]
      rfl
  rcases imp_cases rs with hi | ⟨r, hi⟩ | hi
  · rw [print_none hi, if_neg ?_]
    · rw [List.filterMap_cons]
      simp only [Out.about]
      rw [List.filterMap_map]
      clear h hi
      induction rs with
      | nil => rfl
      | cons r rs ih => rw [List.filterMap_cons]; simp only [Function.comp, Out.about]; rw [List.map_cons, ← ih]
    · intro hall
      obtain ⟨r, hr, h1 | h1⟩ := h
      · have := mem_imp.mpr ⟨hr, h1⟩
        rw [hi] at this; simp at this
      · exact h1 (hall r hr)
  · rw [print_one hi]
    simp only [Bool.false_eq_true, if_false]
    rw [List.filterMap_cons]
    simp only [Out.about]
    exact hl rs
  · rw [print_many hi, List.filterMap_cons]
    simp only [Out.about]
    exact hl rs

/-- **C105** fails: if no patch was meant for the process, all for the same reason, nothing at all is
printed, `--no-summarization` or not. -/
theorem C105_uniform_skips_not_listed (rs : List Result) (sm : Bool) (e : BitVec 32)
    (h : ∀ r ∈ rs, r.err = e ∧ r.notForProcess) : print rs sm = [] := by
  have hi : imp rs = [] := by
    rw [List.eq_nil_iff_forall_not_mem]
    intro r hr
    obtain ⟨h1, h2⟩ := mem_imp.mp hr
    exact h2 (h r h1).2
  rw [print_none hi, if_pos]
  intro r hr
  cases rs with
  | nil => simp at hr
  | cons r0 rs => rw [(h r hr).1, firstErr, (h r0 (by simp)).1]

example : (print demo false).filterMap Out.about = [[97], [98], [99]] :=
  C105_every_patch_listed_partial demo ⟨⟨[98], 12#32⟩, by decide, by decide⟩

example : print [⟨[97], 276#32⟩, ⟨[98], 276#32⟩] false = [] :=
  C105_uniform_skips_not_listed _ false 276#32 (by decide)

end Verif.Report
