import Verif.Trigger.Model

/-! C36 (attempts on a process) and C37 (exit status and counters), C56 (a busy process is tried again). -/

namespace Verif.Trigger

/-! ### C36 -/

/-- Every attempt ends with the process released, unless it could not be hijacked, which leaves nothing to release. -/
def Released (ev : List Event) : Prop := ev = [.hijack] ∨ (ev.head? = some .hijack ∧ ev.getLast? = some .restore)

/-- What an attempt is to do, for the attempt to count as successful. -/
def Succeeded (task : Task) (a : Attempt) : Prop :=
  a.hijack ≤ 0 ∧ (task.revert = true → a.revert = 0 ∨
      (task.livepatch = true ∧ (a.revert = ENOTARGETLIB ∨ a.revert = ENOPATCH)))
    ∧ (task.livepatch = true → a.apply = 0)

theorem attempt_retry_le (task : Task) (a : Attempt) (result : Int) (retry : Nat) :
    (attempt task a result retry).2.1 ≤ retry := by
  unfold attempt
  rcases task with ⟨_ | _, _ | _⟩ <;> simp only [Bool.false_eq_true, if_false, if_true, false_and, true_and, and_true] <;>
    repeat' split <;> simp_all <;> (try split) <;> simp_all

theorem attempt_zero (task : Task) (a : Attempt) (result : Int) (retry : Nat) (ht : task.revert ∨ task.livepatch)
    (h : (attempt task a result retry).1 = 0) : (attempt task a result retry).2.1 = 0 := by
  revert h ht
  unfold attempt
  rcases task with ⟨_ | _, _ | _⟩ <;> simp <;>
    repeat' split <;> simp_all

theorem attempt_result (task : Task) (a : Attempt) (result : Int) (retry : Nat) (ht : task.revert ∨ task.livepatch)
    (hh : a.hijack ≤ 0) : (attempt task a result retry).1 = 0 ↔ Succeeded task a := by
  revert ht
  unfold attempt Succeeded
  rcases task with ⟨_ | _, _ | _⟩ <;> simp [hh] <;>
    repeat' split <;> simp_all
  all_goals grind

theorem attempt_released (task : Task) (a : Attempt) (result : Int) (retry : Nat) :
    Released (.hijack :: (attempt task a result retry).2.2) := by
  unfold attempt Released
  rcases task with ⟨_ | _, _ | _⟩ <;> simp <;> repeat' split <;> simp_all

theorem loop_facts (task : Task) (ht : task.revert ∨ task.livepatch) (env : Nat → Attempt) (fuel retry i : Nat)
    (result : Int) (hf : retry ≤ fuel) (hres : retry ≠ 0 → result ≠ 0) :
    let r := loop task env fuel retry i result
    r.2.length ≤ retry
      ∧ (∀ ev ∈ r.2, Released ev)
      ∧ (∀ k, k + 1 < r.2.length → ¬ Succeeded task (env (i + k)))
      ∧ (retry ≠ 0 → r.2 ≠ [])
      ∧ (retry = 0 → r = (result, []))
      ∧ (retry ≠ 0 → (r.1 = 0 ↔ Succeeded task (env (i + r.2.length - 1)))) := by
  induction fuel generalizing retry i result with
  | zero =>
    have : retry = 0 := by omega
    subst this
    simp [loop]
  | succ fuel ih =>
    by_cases h0 : retry = 0
    · subst h0; simp [loop]
    · simp only [loop, if_neg h0]
      by_cases hh : (env i).hijack > 0
      · rw [if_pos hh]
        refine ⟨by simp; omega, by simp [Released], by simp, by simp, fun h => absurd h h0, fun _ => ?_⟩
        simp only [List.length_singleton, Nat.add_sub_cancel]
        constructor
        · intro h; omega
        · rintro ⟨h, -⟩; omega
      · rw [if_neg hh]
        have hle := attempt_retry_le task (env i) result (retry - 1)
        have hz := attempt_zero task (env i) result (retry - 1) ht
        have hr := attempt_result task (env i) result (retry - 1) ht (by omega)
        have hrel := attempt_released task (env i) result (retry - 1)
        generalize attempt task (env i) result (retry - 1) = x at hle hz hr hrel ⊢
        obtain ⟨res, retry', ev⟩ := x
        simp only at hle hz hr hrel ⊢
        have ih := ih retry' (i + 1) res (by omega) (fun h1 h2 => h1 (hz h2))
        generalize hl : loop task env fuel retry' (i + 1) res = y at ih ⊢
        obtain ⟨r, evs⟩ := y
        simp only at ih ⊢
        obtain ⟨i1, i2, i3, i4, i5, i6⟩ := ih
        refine ⟨by simp; omega, ?_, ?_, by simp, fun h => absurd h h0, fun _ => ?_⟩
        · intro e he
          rcases List.mem_cons.1 he with rfl | he
          · exact hrel
          · exact i2 e he
        · intro k hk
          cases k with
          | zero =>
            simp only [Nat.add_zero]
            intro hs
            have h1 := hz (hr.2 hs)
            have := i5 h1
            simp only [Prod.mk.injEq] at this
            rw [this.2] at hk; simp at hk
          | succ k =>
            have := i3 k (by simpa using hk)
            rwa [show i + (k + 1) = i + 1 + k by omega]
        · by_cases hr0 : retry' = 0
          · have := i5 hr0
            simp only [Prod.mk.injEq] at this
            obtain ⟨rfl, rfl⟩ := this
            simpa using hr
          · have h6 := i6 hr0
            have h4 := i4 hr0
            have hpos : 0 < evs.length := List.length_pos_iff.2 h4
            rw [show i + ((.hijack :: ev) :: evs).length - 1 = i + 1 + evs.length - 1 by simp only [List.length_cons]; omega]
            exact h6

/-- C36: for any number of retries and any behaviour of the process, `ulp trigger` makes at least one and at most that many
attempts, stops after the first that succeeds, releases the process after every attempt, and reports success exactly when
the last attempt succeeded. -/
theorem C36_attempts (task : Task) (ht : task.revert ∨ task.livepatch) (env : Nat → Attempt) (retries : Nat)
    (hr : 1 ≤ retries) :
    let r := triggerOne task env retries
    1 ≤ r.2.length ∧ r.2.length ≤ retries
      ∧ (∀ k, k + 1 < r.2.length → ¬ Succeeded task (env k))
      ∧ (∀ ev ∈ r.2, Released ev)
      ∧ (r.1 = 0 ↔ Succeeded task (env (r.2.length - 1))) := by
  have h := loop_facts task ht env retries retries 0 (-1) (Nat.le_refl _) (fun _ => by decide)
  simp only [Nat.zero_add] at h
  obtain ⟨h1, h2, h3, h4, -, h6⟩ := h
  exact ⟨List.length_pos_iff.2 (h4 (by omega)), h1, h3, h2, h6 (by omega)⟩

/-- The error of an attempt: of the first part that failed. -/
def errorOf (task : Task) (a : Attempt) : Int :=
  if a.hijack > 0 then a.hijack
  else if task.revert = true ∧ a.revert ≠ 0 ∧ ¬ (task.livepatch = true ∧ (a.revert = ENOTARGETLIB ∨ a.revert = ENOPATCH))
    then a.revert
  else if task.livepatch = true then a.apply
  else 0

theorem attempt_error (task : Task) (a : Attempt) (result : Int) (retry : Nat) (ht : task.revert ∨ task.livepatch)
    (hh : a.hijack ≤ 0) : (attempt task a result retry).1 = errorOf task a := by
  revert ht
  have : ¬ a.hijack > 0 := by omega
  unfold attempt errorOf
  rw [if_neg this]
  rcases task with ⟨_ | _, _ | _⟩ <;> simp
  · split <;> simp_all
  · split <;> simp_all
  · by_cases h1 : a.revert = ENOTARGETLIB
    · simp [h1]
    · by_cases h3 : a.revert = ENOPATCH
      · simp [h3]
      · by_cases h2 : a.revert = 0
        · simp [h2]
        · simp [h1, h2, h3]

/-- C36, the error reported is the one of the last attempt. -/
theorem C36_result (task : Task) (ht : task.revert ∨ task.livepatch) (env : Nat → Attempt) (retries : Nat)
    (hr : 1 ≤ retries) :
    (triggerOne task env retries).1 = errorOf task (env ((triggerOne task env retries).2.length - 1)) := by
  suffices ∀ fuel retry i result, retry ≤ fuel → (retry = 0 → (loop task env fuel retry i result) = (result, []))
      ∧ (retry ≠ 0 → (loop task env fuel retry i result).2 ≠ [] ∧ (loop task env fuel retry i result).1
        = errorOf task (env (i + (loop task env fuel retry i result).2.length - 1))) by
    have := (this retries retries 0 (-1) (Nat.le_refl _)).2 (by omega)
    simpa [triggerOne] using this.2
  intro fuel
  induction fuel with
  | zero => intro retry i result h; exact ⟨fun _ => rfl, fun h0 => by omega⟩
  | succ fuel ih =>
    intro retry i result h
    refine ⟨fun h0 => by subst h0; simp [loop], fun h0 => ?_⟩
    simp only [loop, if_neg h0]
    by_cases hh : (env i).hijack > 0
    · rw [if_pos hh]; simp [errorOf, hh]
    · rw [if_neg hh]
      have hle := attempt_retry_le task (env i) result (retry - 1)
      have he := attempt_error task (env i) result (retry - 1) ht (by omega)
      generalize attempt task (env i) result (retry - 1) = x at hle he ⊢
      obtain ⟨res, retry', ev⟩ := x
      simp only at hle he ⊢
      obtain ⟨i1, i2⟩ := ih retry' (i + 1) res (by omega)
      by_cases hr0 : retry' = 0
      · rw [i1 hr0]; simp [he]
      · obtain ⟨j1, j2⟩ := i2 hr0
        refine ⟨by simp, ?_⟩
        rw [j2]
        have : 0 < (loop task env fuel retry' (i + 1) res).2.length := List.length_pos_iff.2 j1
        simp only [List.length_cons]
        congr 2
        omega

/-- A livepatch is applied at most once per attempt, and only between hijack and restore. -/
theorem C36_events (task : Task) (a : Attempt) (result : Int) (retry : Nat) :
    (attempt task a result retry).2.2 ∈ [[.restore], [.revert, .restore], [.apply, .restore],
      [.revert, .apply, .restore]] := by
  unfold attempt
  rcases task with ⟨_ | _, _ | _⟩ <;> simp <;> repeat' split <;> simp_all

/-- A failure to release the process is not reported if the livepatch was applied. -/
theorem C36_restore_failure_unreported (env : Nat → Attempt) (retries : Nat) (hr : 1 ≤ retries)
    (h0 : (env 0).hijack = 0) (ha : (env 0).apply = 0) :
    (triggerOne ⟨false, true⟩ env retries).1 = 0 := by
  obtain ⟨k, rfl⟩ : ∃ k, retries = k + 1 := ⟨retries - 1, by omega⟩
  have hz : ∀ fuel i, loop ⟨false, true⟩ env fuel 0 i 0 = (0, []) := by
    intro fuel i; cases fuel <;> simp [loop]
  simp [triggerOne, loop, h0, attempt, ha, hz]

/-- A process that is busy twice: three attempts, the last one successful. -/
example : triggerOne ⟨false, true⟩ (fun i => ⟨0, 0, if i < 2 then EAGAIN else 0, 0⟩) 5
    = (0, [[.hijack, .apply, .restore], [.hijack, .apply, .restore], [.hijack, .apply, .restore]]) := by decide +kernel
/-- One that stays busy: given up after the last attempt. -/
example : triggerOne ⟨false, true⟩ (fun _ => ⟨0, 0, EAGAIN, 0⟩) 2
    = (((EAGAIN : Nat) : Int), [[.hijack, .apply, .restore], [.hijack, .apply, .restore]]) := by decide +kernel

/-! ### C56 -/

/-- An attempt in which the process was busy, in whichever part. -/
def Busy (task : Task) (a : Attempt) : Prop :=
  a.hijack = 0 ∧ ((task.revert = true ∧ a.revert = EAGAIN)
    ∨ (task.livepatch = true ∧ (task.revert = true → a.revert = 0) ∧ a.apply = EAGAIN))

/-- C56, when there is only one thing to do: as long as the process is busy and nothing else goes wrong, all attempts
are made.  Missing: reverting and applying at once, see below. -/
theorem C56_busy_retried_partial (task : Task) (ht : task.revert ≠ task.livepatch) (env : Nat → Attempt)
    (retries : Nat) (hb : ∀ i < retries, Busy task (env i) ∧ (env i).restore = 0) :
    (triggerOne task env retries).2.length = retries := by
  suffices ∀ fuel retry i result, retry ≤ fuel → i + retry = retries →
      (loop task env fuel retry i result).2.length = retry from
    this retries retries 0 (-1) (Nat.le_refl _) (by omega)
  intro fuel
  induction fuel with
  | zero => intro retry i result hf hi; have : retry = 0 := by omega
            subst this; rfl
  | succ fuel ih =>
    intro retry i result hf hi
    by_cases h0 : retry = 0
    · subst h0; simp [loop]
    · obtain ⟨⟨hh, hb⟩, hrs⟩ := hb i (by omega)
      simp only [loop, if_neg h0]
      rw [if_neg (by omega)]
      have key : (attempt task (env i) result (retry - 1)).2.1 = retry - 1 := by
        rcases task with ⟨_ | _, _ | _⟩ <;> simp_all [attempt, EAGAIN]
      generalize attempt task (env i) result (retry - 1) = x at key ⊢
      obtain ⟨res, retry', ev⟩ := x
      simp only at key ⊢
      subst key
      have := ih (retry - 1) (i + 1) res (by omega) (by omega)
      simp only [List.length_cons]
      omega

/-- The negation for reverting and applying at once: if the old livepatches are reverted and then the process is busy, it is
not tried again, however many retries are left, and stays without any livepatch. -/
theorem C56_busy_after_revert_not_retried (env : Nat → Attempt) (retries : Nat) (hr : 1 ≤ retries)
    (h0 : (env 0).hijack = 0) (h1 : (env 0).revert = 0) (h2 : (env 0).apply = EAGAIN) :
    triggerOne ⟨true, true⟩ env retries = (((EAGAIN : Nat) : Int), [[.hijack, .revert, .apply, .restore]]) := by
  obtain ⟨k, rfl⟩ : ∃ k, retries = k + 1 := ⟨retries - 1, by omega⟩
  have hz : ∀ fuel i r, loop ⟨true, true⟩ env fuel 0 i r = (r, []) := by
    intro fuel i r; cases fuel <;> simp [loop]
  simp [triggerOne, loop, h0, attempt, h1, h2, hz, EAGAIN]

example : (triggerOne ⟨true, false⟩ (fun _ => ⟨0, EAGAIN, 0, 0⟩) 7).2.length = 7 :=
  C56_busy_retried_partial _ (by decide) _ _ (fun _ _ => ⟨⟨rfl, .inl ⟨rfl, rfl⟩⟩, rfl⟩)

/-! ### C37 -/

/-- The results that count as failures. -/
def failing (rs : List (BitVec 32)) : List (BitVec 32) := rs.filter (fun r => r != 0#32 && !skippableError r)

theorem skippable_ne_zero {r : BitVec 32} (h : skippableError r = true) : r ≠ 0#32 := by
  rintro rfl; revert h; decide

theorem or_eq_zero (a b : BitVec 32) : a ||| b = 0#32 ↔ a = 0#32 ∧ b = 0#32 := by
  constructor
  · intro h
    have ha : ∀ i, a.getLsbD i = false ∧ b.getLsbD i = false := by
      intro i
      have : (a ||| b).getLsbD i = false := by rw [h]; simp
      simpa using this
    exact ⟨BitVec.eq_of_getLsbD_eq (fun i _ => by simp [(ha i).1]),
      BitVec.eq_of_getLsbD_eq (fun i _ => by simp [(ha i).2])⟩
  · rintro ⟨rfl, rfl⟩; simp

theorem fold_file (rs : List (BitVec 32)) (s : Summary) :
    let t := rs.foldl fileStep s
    (t.ret = 0#32 ↔ s.ret = 0#32 ∧ failing rs = [])
      ∧ (t.ret.toNat % 256 = 0 ↔ s.ret.toNat % 256 = 0 ∧ ∀ r ∈ failing rs, r.toNat % 256 = 0)
      ∧ t.successes = s.successes + rs.countP (· == 0#32)
      ∧ t.skippes = s.skippes + rs.countP skippableError
      ∧ t.failures = s.failures + (failing rs).length := by
  induction rs generalizing s with
  | nil => simp [failing]
  | cons r rs ih =>
    simp only [List.foldl_cons]
    obtain ⟨h1, h2, h3, h4, h5⟩ := ih (fileStep s r)
    have hor : ∀ a b : BitVec 32, (a ||| b).toNat % 256 = 0 ↔ a.toNat % 256 = 0 ∧ b.toNat % 256 = 0 := by
      intro a b
      have e : ∀ n : Nat, n % 256 = n &&& 255 := fun n => (Nat.and_two_pow_sub_one_eq_mod n 8).symm
      rw [BitVec.toNat_or, e, Nat.and_or_distrib_right, e, e]
      constructor
      · intro h
        have : ∀ i, ((a.toNat &&& 255) ||| (b.toNat &&& 255)).testBit i = false := by rw [h]; simp
        constructor <;> apply Nat.eq_of_testBit_eq <;> intro i <;> have := this i <;>
          rw [Nat.testBit_or] at this <;> simp only [Bool.or_eq_false_iff] at this <;> simp [this]
      · rintro ⟨h1, h2⟩; rw [h1, h2]; rfl
    by_cases hs : skippableError r = true
    · have hne := skippable_ne_zero hs
      have hf : failing (r :: rs) = failing rs := by simp [failing, hs]
      have e : fileStep s r = { s with skippes := s.skippes + 1 } := by simp [fileStep, hs]
      rw [e] at h1 h2 h3 h4 h5 ⊢
      rw [hf]
      refine ⟨h1, h2, ?_, ?_, h5⟩
      · rw [h3, List.countP_cons]; simp [hne]
      · rw [h4, List.countP_cons]; simp [hs]; omega
    · simp only [Bool.not_eq_true] at hs
      by_cases h0 : r = 0#32
      · subst h0
        have hf : failing (0#32 :: rs) = failing rs := by simp [failing]
        have hs : skippableError 0#32 = false := rfl
        have e : fileStep s 0#32 = { s with ret := s.ret ||| 0#32, successes := s.successes + 1 } := by simp [fileStep, hs]
        rw [e] at h1 h2 h3 h4 h5 ⊢
        rw [hf]
        simp only [BitVec.or_zero] at h1 h2 h3 h4 h5 ⊢
        refine ⟨h1, h2, ?_, ?_, h5⟩
        · rw [h3, List.countP_cons]; simp; omega
        · rw [h4, List.countP_cons]; simp [hs]
      · have hf : failing (r :: rs) = r :: failing rs := by simp [failing, hs, h0]
        have e : fileStep s r = { s with ret := s.ret ||| r, failures := s.failures + 1 } := by simp [fileStep, hs, h0]
        rw [e] at h1 h2 h3 h4 h5 ⊢
        rw [hf]
        refine ⟨?_, ?_, ?_, ?_, ?_⟩
        · rw [h1]; simp only [or_eq_zero]; simp [h0]
        · rw [h2]; simp only [hor, List.mem_cons, forall_eq_or_imp]; simp [and_assoc]
        · rw [h3, List.countP_cons]; simp [h0]
        · rw [h4, List.countP_cons]; simp [hs]
        · rw [h5]; simp; omega

/-- C37, counters with a livepatch file: every process is counted once, as patched, skipped or failed, by its result. -/
theorem C37_file_counters (rs : List (BitVec 32)) :
    (manyFile rs).successes = rs.countP (· == 0#32) ∧ (manyFile rs).skippes = rs.countP skippableError
      ∧ (manyFile rs).failures = (failing rs).length
      ∧ (manyFile rs).successes + (manyFile rs).skippes + (manyFile rs).failures = rs.length := by
  obtain ⟨-, -, h3, h4, h5⟩ := fold_file rs ⟨0#32, 0, 0, 0⟩
  simp only [Nat.zero_add] at h3 h4 h5
  refine ⟨h3, h4, h5, ?_⟩
  unfold manyFile
  rw [h3, h4, h5]
  clear h3 h4 h5
  induction rs with
  | nil => rfl
  | cons r rs ih =>
    by_cases hs : skippableError r = true
    · have hne := skippable_ne_zero hs
      simp only [List.countP_cons, failing, List.filter_cons, hs, List.length_cons]
      simp [hne]
      simp only [failing] at ih; omega
    · simp only [Bool.not_eq_true] at hs
      by_cases h0 : r = 0#32
      · subst h0
        simp only [List.countP_cons, failing, List.filter_cons, List.length_cons]
        simp [hs]
        simp only [failing] at ih; omega
      · simp only [List.countP_cons, failing, List.filter_cons, hs, List.length_cons]
        simp [h0]
        simp only [failing] at ih; omega

/-- C37, return value with a livepatch file: non-zero exactly when some process failed. -/
theorem C37_file_ret (rs : List (BitVec 32)) : (manyFile rs).ret ≠ 0#32 ↔ failing rs ≠ [] := by
  have := (fold_file rs ⟨0#32, 0, 0, 0⟩).1
  simp only [true_and] at this
  unfold manyFile
  rw [Ne, this]

/-- C37, exit status with a livepatch file: non-zero exactly when some process failed with an error code that is not a
multiple of 256.  Missing, and false (see below): the other error codes, and wildcards. -/
theorem C37_file_exit_status_partial (rs : List (BitVec 32)) :
    exitStatus (manyFile rs).ret ≠ 0 ↔ ∃ r ∈ failing rs, r.toNat % 256 ≠ 0 := by
  have := (fold_file rs ⟨0#32, 0, 0, 0⟩).2.1
  simp only [show (0#32).toNat % 256 = 0 from rfl, true_and] at this
  unfold exitStatus manyFile
  rw [Ne, this]
  constructor
  · intro h
    apply Classical.byContradiction
    intro hc
    exact h (fun r hr => Classical.byContradiction fun hne => hc ⟨r, hr, hne⟩)
  · rintro ⟨r, hr, hne⟩ h; exact hne (h r hr)

/-- The negation: when all failures are `EUNKNOWN`, which is 256, the tool exits with status 0. -/
theorem C37_unknown_error_exits_zero (rs : List (BitVec 32)) (h : ∀ r ∈ failing rs, r = 256#32) :
    exitStatus (manyFile rs).ret = 0 := by
  apply Classical.byContradiction
  intro hc
  obtain ⟨r, hr, hne⟩ := (C37_file_exit_status_partial rs).1 hc
  rw [h r hr] at hne; exact hne rfl

/-- And with a wildcard the tool always exits with status 0. -/
theorem C37_wildcard_exits_zero (ps : List (List Entry)) : exitStatus (manyWild ps).ret = 0 := by
  suffices ∀ s : Summary, s.ret = 0#32 → (ps.foldl wildStep s).ret = 0#32 by
    unfold manyWild exitStatus; rw [this _ rfl]; rfl
  induction ps with
  | nil => intro s h; exact h
  | cons p ps ih =>
    intro s h
    rw [List.foldl_cons]
    apply ih
    simp only [wildStep]
    by_cases g1 : manyUlps p &&& 1 ≠ 0 <;> by_cases g2 : manyUlps p &&& 2 ≠ 0 <;>
      by_cases g3 : manyUlps p &&& 4 ≠ 0 <;> simp only [g1, g2, g3, h, not_false_eq_true, not_true_eq_false, ne_eq, if_true, if_false]

/-- The results of the files in the directory itself. -/
def results : List Entry → List (BitVec 32)
  | [] => []
  | .file r :: es => r :: results es
  | .other :: es => results es
  | .dir _ :: es => results es

theorem manyUlps_bits (es : List Entry) :
    (manyUlps es &&& 1 ≠ 0 ↔ 0#32 ∈ results es)
      ∧ (manyUlps es &&& 2 ≠ 0 ↔ ∃ r ∈ results es, skippableError r = true)
      ∧ (manyUlps es &&& 4 ≠ 0 ↔ ∃ r ∈ results es, r ≠ 0#32 ∧ skippableError r = false) := by
  have hor : ∀ a b k : Nat, (a ||| b) &&& 2 ^ k ≠ 0 ↔ a &&& 2 ^ k ≠ 0 ∨ b &&& 2 ^ k ≠ 0 := by
    intro a b k
    have e : ∀ x : Nat, x &&& 2 ^ k ≠ 0 ↔ x.testBit k = true := by
      intro x
      constructor
      · intro h
        apply Classical.byContradiction
        intro hc
        apply h
        apply Nat.eq_of_testBit_eq
        intro i
        rw [Nat.testBit_and, Nat.testBit_two_pow]
        by_cases hi : k = i
        · subst hi; simp only [Bool.not_eq_true] at hc; simp [hc]
        · simp [hi]
      · intro h hc
        have : (x &&& 2 ^ k).testBit k = false := by rw [hc]; simp
        rw [Nat.testBit_and, Nat.testBit_two_pow, h] at this
        simp at this
    rw [e, e, e, Nat.testBit_or]; simp
  induction es with
  | nil => simp [manyUlps, results]
  | cons x es ih =>
    cases x with
    | file r =>
      obtain ⟨h1, h2, h3⟩ := ih
      have e1 := hor (flagOf r) (manyUlps es) 0
      have e2 := hor (flagOf r) (manyUlps es) 1
      have e3 := hor (flagOf r) (manyUlps es) 2
      simp only [Nat.pow_zero, Nat.pow_one, show 2 ^ 2 = 4 from rfl] at e1 e2 e3
      have f1 : flagOf r &&& 1 ≠ 0 ↔ r = 0#32 := by
        unfold flagOf; split <;> rename_i h
        · simp [h]
        · split <;> simp [h]
      have f2 : flagOf r &&& 2 ≠ 0 ↔ skippableError r = true := by
        unfold flagOf; split <;> rename_i h
        · subst h; decide
        · split <;> rename_i h' <;> simp [h']
      have f3 : flagOf r &&& 4 ≠ 0 ↔ r ≠ 0#32 ∧ skippableError r = false := by
        unfold flagOf; split <;> rename_i h
        · simp [h]
        · split <;> rename_i h' <;> simp [h, h']
      simp only [manyUlps, results, List.mem_cons, exists_eq_or_imp]
      rw [e1, e2, e3, h1, h2, h3, f1, f2, f3]
      refine ⟨?_, Iff.rfl, Iff.rfl⟩
      exact ⟨fun h => h.imp Eq.symm id, fun h => h.imp Eq.symm id⟩
    | other => simpa [manyUlps, results] using ih
    | dir d => simpa [manyUlps, results] using ih

/-- C37, counters with a wildcard: a process is counted as patched when some livepatch was applied, as skipped when none was
and some was skipped, and as failed when some failed, which may be a process counted as patched or skipped too.
Subdirectories count for nothing. -/
theorem C37_wildcard_counters_partial (ps : List (List Entry)) :
    (manyWild ps).successes = ps.countP (fun es => decide (0#32 ∈ results es))
      ∧ (manyWild ps).skippes = ps.countP (fun es => decide (0#32 ∉ results es) && (results es).any skippableError)
      ∧ (manyWild ps).failures = ps.countP (fun es => (results es).any (fun r => r != 0#32 && !skippableError r)) := by
  suffices ∀ s : Summary, (ps.foldl wildStep s).successes
        = s.successes + ps.countP (fun es => decide (0#32 ∈ results es))
      ∧ (ps.foldl wildStep s).skippes
        = s.skippes + ps.countP (fun es => decide (0#32 ∉ results es) && (results es).any skippableError)
      ∧ (ps.foldl wildStep s).failures
        = s.failures + ps.countP (fun es => (results es).any (fun r => r != 0#32 && !skippableError r)) by
    simpa [manyWild] using this ⟨0#32, 0, 0, 0⟩
  induction ps with
  | nil => intro s; simp
  | cons es ps ih =>
    intro s
    rw [List.foldl_cons]
    obtain ⟨h1, h2, h3⟩ := ih (wildStep s es)
    rw [h1, h2, h3]
    obtain ⟨b1, b2, b3⟩ := manyUlps_bits es
    have c2 : (results es).any skippableError = true ↔ manyUlps es &&& 2 ≠ 0 := by
      rw [b2, List.any_eq_true]
    have c3 : (results es).any (fun r => r != 0#32 && !skippableError r) = true ↔ manyUlps es &&& 4 ≠ 0 := by
      rw [b3, List.any_eq_true]; simp
    have c1 : decide (0#32 ∈ results es) = true ↔ manyUlps es &&& 1 ≠ 0 := by rw [b1]; simp
    simp only [List.countP_cons, wildStep]
    by_cases g1 : manyUlps es &&& 1 ≠ 0 <;> by_cases g2 : manyUlps es &&& 2 ≠ 0 <;> by_cases g3 : manyUlps es &&& 4 ≠ 0 <;>
      simp_all <;> omega

/-- Four processes: patched, skipped, failed; the exit status tells. -/
example : manyFile [0, 257, 258, 0] = ⟨258, 2, 1, 1⟩ ∧ exitStatus (manyFile [0, 257, 258, 0]).ret = 2 := by decide +kernel
/-- A process for which patching failed with `EUNKNOWN`. -/
example : manyFile [256] = ⟨256, 0, 0, 1⟩ ∧ exitStatus (manyFile [256]).ret = 0 := by decide +kernel
/-- A process with a patch that applies and one that fails is counted twice; one with a failure in a subdirectory is not
counted. -/
example : manyWild [[.file 0, .other, .file 258], [.dir [.file 258]]] = ⟨0, 1, 0, 1⟩ := by decide +kernel

/-! ### Further concrete cases -/

example := C36_attempts ⟨true, true⟩ (.inl rfl) (fun i => ⟨0, if i < 2 then EAGAIN else 0, 0, 0⟩) 5 (by decide)
example := C36_result ⟨true, true⟩ (.inl rfl) (fun i => ⟨0, if i < 2 then EAGAIN else 0, 0, 0⟩) 5 (by decide)
example := C36_events ⟨true, true⟩ ⟨0, ENOPATCH, EBUILDID, 0⟩ 0 3
/-- Restoring fails and the result is still 0. -/
example := C36_restore_failure_unreported (fun _ => ⟨0, 0, 0, EUNKNOWN⟩) 4 (by decide) rfl rfl
example := C56_busy_after_revert_not_retried (fun _ => ⟨0, 0, EAGAIN, 0⟩) 9 (by decide) rfl rfl rfl
example := C37_file_counters [0, 257, 258, 0]
example := C37_file_ret [0, 257, 258, 0]
example := C37_file_exit_status_partial [0, 257, 258, 0]
example : exitStatus (manyFile [0, 256, 256]).ret = 0 := C37_unknown_error_exits_zero _ (by intro r hr; have := (List.mem_filter.1 hr); simp at this; grind)
example := C37_wildcard_exits_zero [[.file 0, .other, .file 258], [.dir [.file 258]]]
example := C37_wildcard_counters_partial [[.file 0, .other, .file 258], [.dir [.file 258]]]

end Verif.Trigger
