import Verif.Redirect.Model

/-! Properties C71, C72, C73, C74. -/

namespace Verif.Redirect

/-! ### The invariant without signals -/

/-- In the routine, running, or stopped at its end. -/
def InRoutine (r : Routine) (st : St) : Prop :=
  st.traced = true ∧ st.pend = [] ∧ ∃ k, k ≤ r.n ∧ st.ctx = .routine k ∧
    (st.run = .running ∨ (st.run = .stopped SIGTRAP ∧ k = r.n))

def ToolInv (r : Routine) (st : St) : Tool → Prop
  | .idle => st.traced = false ∧ st.run = .running ∧ st.ctx = .own
  | .attaching => st.traced = true ∧ st.ctx = .own ∧
      ((st.run = .running ∧ st.pend = [SIGSTOP]) ∨ (st.run = .stopped SIGSTOP ∧ st.pend = []))
  | .attached => st.traced = true ∧ st.ctx = .own ∧ st.run = .stopped SIGSTOP ∧ st.pend = []
  | .waiting => InRoutine r st
  | .got (.ok v) => st.traced = true ∧ st.pend = [] ∧ st.ctx = .routine r.n ∧ st.run = .stopped SIGTRAP ∧ v = r.val r.n
  | .got .time => InRoutine r st
  | .released true => st.traced = false ∧ st.run = .running ∧ st.ctx = .own
  | .released false => InRoutine r st
  | .exited => st.traced = false ∧ ∀ s, st.run ≠ .stopped s

structure Inv (r : Routine) (st : St) : Prop where
  tool : ToolInv r st st.tool
  count : st.run ≠ .dead → ∀ s, s ≠ SIGSTOP → st.sent.count s = st.delivered.count s + st.pend.count s

theorem inv_start (r : Routine) : Inv r start := by
  constructor
  · simp [ToolInv, start]
  · simp [start]

theorem next_single {s : Nat} {l : List Nat} {x : Nat} (h : Next s l) (hl : l = [x]) : s = x := by
  subst hl; simpa using h.1

theorem count_take {s x : Nat} {l : List Nat} (h : s ∈ l) :
    l.count x = (l.erase s).count x + (if s = x then 1 else 0) := by
  by_cases e : s = x
  · subst e
    have := List.count_pos_iff.mpr h
    rw [List.count_erase_self]; simp; omega
  · rw [List.count_erase_of_ne (by simpa using fun h => e h.symm)]; simp [e]

theorem inv_step {r : Routine} {a b : St} (h : Inv r a) (hs : Step r true a b) : Inv r b := by
  obtain ⟨ht, hc⟩ := h
  cases hs with
  | arrive s hr hs hq =>
    have hq := hq rfl
    refine ⟨?_, ?_⟩
    · cases htl : a.tool <;> simp only [htl, ToolInv, InRoutine] at ht ⊢ <;> grind
    · intro hd x hx
      have := hc hd x hx
      simp only [List.count_cons]; omega
  | deliver s hu hr hn =>
    refine ⟨?_, ?_⟩
    · cases htl : a.tool <;> simp only [htl, ToolInv, InRoutine] at ht ⊢ <;> grind
    · intro hd x hx
      have h1 := hc hd x hx
      have h2 := count_take (x := x) hn.1
      simp only [List.count_cons, beq_iff_eq]; omega
  | attach hi hr hq =>
    have hq := hq rfl
    refine ⟨?_, ?_⟩
    · rw [hi] at ht
      exact ⟨rfl, ht.2.2, Or.inl ⟨hr, by simp [hq]⟩⟩
    · intro hd x hx
      have := hc hd x hx
      simp only [List.count_cons, beq_iff_eq]
      rw [if_neg (fun e => hx e.symm)]; exact this
  | signalStop s htr hr hn =>
    have hatt : a.tool = .attaching ∧ a.pend = [SIGSTOP] := by
      cases htl : a.tool <;> simp only [htl, ToolInv, InRoutine] at ht
      all_goals (have := hn.1; grind)
    have hs : s = SIGSTOP := next_single hn hatt.2
    subst hs
    refine ⟨?_, ?_⟩
    · rw [hatt.1] at ht
      simp only [hatt.1]
      exact ⟨ht.1, ht.2.1, Or.inr ⟨rfl, by simp [hatt.2]⟩⟩
    · intro _ x hx
      have h1 := hc (by simp [hr]) x hx
      have h2 := count_take (x := x) hn.1
      rw [if_neg (fun e => hx e.symm)] at h2
      simp only; omega
  | seen s hi hr =>
    refine ⟨?_, hc⟩
    simp only [hi, ToolInv] at ht ⊢
    rcases ht.2.2 with h | h
    · rw [hr] at h; simp at h
    · exact ⟨ht.1, ht.2.1, h.1, h.2⟩
  | redirect s hi hr =>
    refine ⟨?_, ?_⟩
    · rw [hi] at ht
      exact ⟨ht.1, ht.2.2.2, 0, Nat.zero_le _, rfl, Or.inl rfl⟩
    · intro _; exact hc (by simp [hr])
  | exec k hr hp hcx hk =>
    refine ⟨?_, hc⟩
    cases htl : a.tool <;> simp only [htl, ToolInv, InRoutine] at ht ⊢
    all_goals grind
  | trap hr hp hcx =>
    refine ⟨?_, ?_⟩
    · cases htl : a.tool <;> simp only [htl, ToolInv, InRoutine] at ht ⊢
      all_goals grind
    · intro hd; exact hc (by simp [hr])
  | stopSeen s hi hr =>
    refine ⟨?_, hc⟩
    simp only [hi, ToolInv, InRoutine] at ht ⊢
    obtain ⟨h1, h2, k, h3, h4, h5 | h5⟩ := ht
    · rw [hr] at h5; simp at h5
    · refine ⟨h1, h2, by rw [h4, h5.2], h5.1, by rw [h4, h5.2]; rfl⟩
  | timeout hi hr =>
    refine ⟨?_, hc⟩
    rw [hi] at ht
    exact ht
  | restore o s hi hr =>
    refine ⟨?_, ?_⟩
    · simp [ToolInv]
    · intro _; exact hc (by simp [hr])
  | restoreFail o hi hr =>
    refine ⟨?_, hc⟩
    cases o with
    | ok v => simp only [hi, ToolInv] at ht; rw [hr] at ht; simp at ht
    | time => rw [hi] at ht; exact ht
  | exitRunning b hi hr =>
    exact ⟨by simp [ToolInv, hr], hc⟩
  | exitStopped b s hi hr =>
    cases b with
    | true => simp only [hi, ToolInv] at ht; rw [hr] at ht; simp at ht
    | false =>
      simp only [hi, ToolInv, InRoutine] at ht
      obtain ⟨h1, h2, k, h3, h4, h5 | h5⟩ := ht
      · rw [hr] at h5; simp at h5
      · have hs : s = SIGTRAP := by rw [hr] at h5; simpa using h5.1
        have hk : a.ctx = .routine r.n := by rw [h4, h5.2]
        refine ⟨?_, ?_⟩
        · simp [ToolInv, hs, hk]
        · intro hd; exact absurd (by simp [hs, hk]) hd

theorem inv_steps {r : Routine} {st : St} (h : Steps r true start st) : Inv r st := by
  induction h with
  | refl => exact inv_start r
  | tail _ hs ih => exact inv_step ih hs

theorem Steps.trans {r : Routine} {q : Bool} {a b c : St} (h1 : Steps r q a b) (h2 : Steps r q b c) : Steps r q a c := by
  induction h2 with
  | refl => exact h1
  | tail _ hs ih => exact ih.tail hs

theorem Steps.one {r : Routine} {q : Bool} {a b : St} (h : Step r q a b) : Steps r q a b := Steps.refl.tail h

/-! ### Executions used below -/

/-- Attached without disturbance, the routine after `k` steps. -/
theorem run_k (r : Routine) (q : Bool) (k : Nat) (hk : k ≤ r.n) :
    Steps r q start ⟨true, .running, .routine k, .waiting, [], [], []⟩ := by
  induction k with
  | zero =>
    refine ((((Steps.refl.tail (.attach start rfl rfl (by simp [start]))).tail
      (.signalStop _ SIGSTOP rfl rfl ⟨by simp [start], by simp [start]⟩)).tail (.seen _ SIGSTOP rfl rfl)).tail
      (.redirect _ SIGSTOP rfl rfl))
  | succ k ih => exact (ih (by omega)).tail (.exec _ k rfl rfl rfl (by omega))

/-- A signal is pending when the tool attaches: the thread stops for it first, and for the `SIGSTOP` of the tool when it
should run the routine. -/
theorem run_pending (r : Routine) (s : Nat) (hs : 1 ≤ s ∧ s < SIGSTOP ∧ s ≠ 9) :
    Steps r false start ⟨true, .stopped SIGSTOP, .routine 0, .waiting, [s], [], []⟩ := by
  have h1 : Steps r false start ⟨false, .running, .own, .idle, [s], [s], []⟩ :=
    .one (.arrive start s (by simp [start]) ⟨hs.1, hs.2.2⟩ (by simp))
  have h2 := h1.tail (.attach _ rfl rfl (by simp))
  have h3 := h2.tail (.signalStop _ s rfl rfl ⟨by simp, by
    intro x hx; simp only [List.mem_cons, List.not_mem_nil, or_false] at hx
    rcases hx with rfl | rfl
    · omega
    · exact Nat.le_refl _⟩)
  have e : ([SIGSTOP, s] : List Nat).erase s = [SIGSTOP] := by
    rw [List.erase_cons_tail (by simpa using fun h : SIGSTOP = s => absurd h (by omega))]; simp
  simp only [e] at h3
  have h4 := ((h3.tail (.seen _ s rfl rfl)).tail (.redirect _ s rfl rfl)).tail
    (.signalStop _ SIGSTOP rfl rfl ⟨by simp, by simp⟩)
  simpa using h4

/-! ### C71 -/

/-- **C71** The routine calls its function exactly once and comes to its trap, whether or not the thread was stopped in a
system call that the kernel restarts. -/
theorem C71_routine_calls_once (f fuel : Nat) (restart : Bool) (h : 4 ≤ fuel) :
    routineRun f fuel (startOffset restart) = (7, [f]) := by
  obtain ⟨fuel, rfl⟩ : ∃ k, fuel = k + 4 := ⟨fuel - 4, by omega⟩
  have h7 : ∀ m, routineRun f m 7 = (7, []) := by intro m; cases m <;> rfl
  cases restart <;> simp [startOffset, routineRun, routineStep, routineCode, h7]

example : routineRun 0x1234 9 (startOffset true) = (7, [0x1234]) := C71_routine_calls_once 0x1234 9 true (by decide)

/-- A poll that the waiting loop takes no notice of: nothing yet, another process, or a status (of the thread being killed
without a core dump, for instance) that says neither exit nor core dump nor stop. -/
def Ignored (p : Poll) : Prop :=
  p = .nothing ∨ p = .other ∨ ∃ st, p = .self st ∧ st % 128 ≠ 0 ∧ st / 128 % 2 = 0 ∧ st % 256 ≠ 127

theorem waitLoop_stopped (T : Nat) (ps : List (Poll × Nat)) :
    waitLoop T ps = some .stopped ↔ ∃ pre st t post, ps = pre ++ (.self st, t) :: post ∧ st % 256 = 127 ∧
      ∀ x ∈ pre, Ignored x.1 ∧ x.2 < T := by
  induction ps with
  | nil => simp [waitLoop]
  | cons x ps ih =>
    obtain ⟨p, t⟩ := x
    have key : ∀ (hig : Ignored p), (if t < T then waitLoop T ps else some .timeout) = some .stopped ↔
        ∃ pre st u post, (p, t) :: ps = pre ++ (.self st, u) :: post ∧ st % 256 = 127 ∧
          ∀ x ∈ pre, Ignored x.1 ∧ x.2 < T := by
      intro hig
      constructor
      · intro h
        split at h
        · rename_i ht
          obtain ⟨pre, st, u, post, h1, h2, h3⟩ := ih.mp h
          refine ⟨(p, t) :: pre, st, u, post, by rw [h1]; rfl, h2, ?_⟩
          intro x hx
          rcases List.mem_cons.mp hx with rfl | hx
          · exact ⟨hig, ht⟩
          · exact h3 x hx
        · simp at h
      · rintro ⟨pre, st, u, post, h1, h2, h3⟩
        cases pre with
        | nil =>
          simp only [List.nil_append, List.cons.injEq, Prod.mk.injEq] at h1
          rcases hig with h | h | ⟨q, h, h4, h5, h6⟩
          · rw [h] at h1; simp at h1
          · rw [h] at h1; simp at h1
          · rw [h] at h1; simp only [Poll.self.injEq] at h1
            exact absurd (h1.1.1 ▸ h2) h6
        | cons y pre =>
          simp only [List.cons_append, List.cons.injEq] at h1
          have := h3 y (by simp)
          rw [← h1.1] at this
          rw [if_pos this.2]
          exact ih.mpr ⟨pre, st, u, post, h1.2, h2, fun x hx => h3 x (by simp [hx])⟩
    cases p with
    | nothing => rw [← key (Or.inl rfl)]; rfl
    | other => rw [← key (Or.inr (Or.inl rfl))]; rfl
    | error =>
      constructor
      · intro h; simp [waitLoop] at h
      · rintro ⟨pre, st, u, post, h1, h2, h3⟩
        cases pre with
        | nil => simp at h1
        | cons y pre =>
          simp only [List.cons_append, List.cons.injEq] at h1
          have := (h3 y (by simp)).1
          rw [← h1.1] at this
          rcases this with h | h | ⟨_, h, _⟩ <;> simp at h
    | self q =>
      by_cases h1 : wifexited q || wcoredump q
      · constructor
        · intro h; simp [waitLoop, h1] at h
        · rintro ⟨pre, st, u, post, h2, h3, h4⟩
          exfalso
          simp only [wifexited, wcoredump, Bool.or_eq_true, beq_iff_eq] at h1
          cases pre with
          | nil =>
            simp only [List.nil_append, List.cons.injEq, Prod.mk.injEq, Poll.self.injEq] at h2
            rw [← h2.1.1] at h3
            omega
          | cons y pre =>
            simp only [List.cons_append, List.cons.injEq] at h2
            have := (h4 y (by simp)).1
            rw [← h2.1] at this
            rcases this with h | h | ⟨_, h, h5, h6, _⟩
            · simp at h
            · simp at h
            · simp only [Poll.self.injEq] at h; subst h; omega
      · by_cases h2 : wifstopped q
        · simp only [waitLoop, h1, h2, if_true]
          simp only [wifstopped, beq_iff_eq] at h2
          refine ⟨fun _ => ⟨[], q, t, ps, rfl, h2, by simp⟩, fun _ => rfl⟩
        · have hig : Ignored (.self q) := by
            simp only [wifexited, wcoredump, wifstopped, Bool.or_eq_true, beq_iff_eq, not_or] at h1 h2
            exact Or.inr (Or.inr ⟨q, rfl, h1.1, by omega, h2⟩)
          rw [← key hig]
          simp [waitLoop, h1, h2]

/-- **C71** `run_and_redirect` reports success exactly if all its requests succeed and it sees the thread stopped, in time
and before anything else ends the wait. (It does not look at why the thread stopped.) -/
theorem C71_success_iff_stop (setregs cont getregs : Bool) (T : Nat) (polls : List (Poll × Nat)) :
    runAndRedirect setregs cont getregs T polls = some 0 ↔
      setregs = true ∧ cont = true ∧ getregs = true ∧
      ∃ pre st t post, polls = pre ++ (.self st, t) :: post ∧ st % 256 = 127 ∧ ∀ x ∈ pre, Ignored x.1 ∧ x.2 < T := by
  rw [← waitLoop_stopped]
  unfold runAndRedirect
  cases setregs <;> cases cont <;> simp [ETARGETHOOK]
  cases h : waitLoop T polls with
  | none => simp
  | some w => cases w <;> cases getregs <;> simp [EUNKNOWN, ETIME]

/-- Stopped by `SIGTERM` (15) after two polls: taken for success. -/
example : runAndRedirect true true true 200 [(.nothing, 0), (.nothing, 0), (.self (15 * 256 + 127), 1)] = some 0 :=
  (C71_success_iff_stop _ _ _ _ _).mpr ⟨rfl, rfl, rfl, [(.nothing, 0), (.nothing, 0)], _, 1, [], rfl, by decide,
    by intro x hx; simp only [List.mem_cons, List.not_mem_nil, or_false, or_self] at hx; subst hx
       exact ⟨Or.inl rfl, by decide⟩⟩

/-- **C71, partial** If no signal is sent to the thread while it is traced, and none is pending when the tool attaches, then
the routine has run to its end whenever the tool takes it for finished, and the value read is its return value. Missing: signals
(`C71_premature`). -/
theorem C71_ran_to_end_partial (r : Routine) (st : St) (v : Nat) (h : Steps r true start st) (ho : st.tool = .got (.ok v)) :
    st.ctx = .routine r.n ∧ v = r.val r.n := by
  have := (inv_steps h).tool
  rw [ho] at this
  exact ⟨this.2.2.1, this.2.2.2.2⟩

/-- A routine of three steps that leaves 275 in the return register. -/
def demoRoutine : Routine := ⟨3, fun k => if k = 3 then 275 else 0⟩

theorem run_complete (r : Routine) (q : Bool) :
    Steps r q start ⟨true, .stopped SIGTRAP, .routine r.n, .got (.ok (r.val r.n)), [], [], []⟩ :=
  ((run_k r q r.n (Nat.le_refl _)).tail (.trap _ rfl rfl rfl)).tail (.stopSeen _ SIGTRAP rfl rfl)

example : (275 : Nat) = demoRoutine.val demoRoutine.n :=
  (C71_ran_to_end_partial demoRoutine _ 275 (run_complete demoRoutine true) rfl).2

/-- **C71 (negation)** A signal that reaches the thread after any number of steps of the routine makes the tool take the
routine for finished, and whatever is in the return register for its result. -/
theorem C71_premature (r : Routine) (k s : Nat) (hk : k < r.n) (hs : 1 ≤ s ∧ s ≠ 9) :
    ∃ st, Steps r false start st ∧ st.tool = .got (.ok (r.val k)) ∧ st.ctx = .routine k := by
  refine ⟨_, (((run_k r false k (by omega)).tail (.arrive _ s (by simp) hs (by simp))).tail
    (.signalStop _ s rfl rfl ⟨by simp, by simp⟩)).tail (.stopSeen _ s rfl rfl), rfl, rfl⟩

example : ∃ st, Steps demoRoutine false start st ∧ st.tool = .got (.ok (demoRoutine.val 1)) ∧ st.ctx = .routine 1 :=
  C71_premature demoRoutine 1 10 (by decide) (by decide)

/-- **C71 (negation)** If a signal with a number below `SIGSTOP` is pending when the tool attaches, nothing of the routine
runs. If the thread had 0 in its return register, `apply_patch` reports that the livepatch was applied. -/
theorem C71_success_without_running (r : Routine) (s : Nat) (hs : 1 ≤ s ∧ s < SIGSTOP ∧ s ≠ 9) (h0 : r.val 0 = 0) :
    ∃ st v, Steps r false start st ∧ st.tool = .got (.ok v) ∧ st.ctx = .routine 0 ∧ (applyReport (r.val 0) v 0).1 = 0 := by
  refine ⟨_, _, (run_pending r s hs).tail (.stopSeen _ SIGSTOP rfl rfl), rfl, rfl, ?_⟩
  simp [Routine.rax, h0, applyReport]

example : ∃ st v, Steps demoRoutine false start st ∧ st.tool = .got (.ok v) ∧ st.ctx = .routine 0 ∧
    (applyReport 0 v 0).1 = 0 :=
  C71_success_without_running demoRoutine 15 (by decide) rfl

/-! ### C72 -/

/-- **C72, partial** Without signals, the tool reports what the routine returned, and interprets the queue, unless the
routine returned an error equal to what the return register held before. -/
theorem C72_result_reported_partial (r : Routine) (st : St) (v : Nat) (h : Steps r true start st)
    (ho : st.tool = .got (.ok v)) (hne : r.val r.n ≠ r.val 0 ∨ r.val r.n = 0 ∨ r.val r.n = EAGAIN) :
    applyReport (r.val 0) v 0 = (((r.val r.n : Nat) : Int), true) := by
  have hv := (C71_ran_to_end_partial r st v h ho).2
  subst hv
  unfold applyReport
  rw [if_neg (by intro hx; rcases hne with h | h | h; exact h hx.2.2; exact hx.1 h; exact hx.2.1 h)]
  simp

example : applyReport 0 275 0 = (275, true) :=
  C72_result_reported_partial demoRoutine _ 275 (run_complete demoRoutine true) rfl (by decide)

/-- **C72 (negation)** If the thread happened to have the error code of the routine in its return register, the tool reports
that the routine did not run, although it did, and does not interpret the queue. -/
theorem C72_reported_not_run (r : Routine) (h0 : r.val r.n = r.val 0) (h1 : r.val r.n ≠ 0) (h2 : r.val r.n ≠ EAGAIN) :
    ∃ st v, Steps r true start st ∧ st.tool = .got (.ok v) ∧ st.ctx = .routine r.n ∧ v = r.val r.n ∧
      ∀ i, applyReport (r.val 0) v i = ((EHOOKNOTRUN : Int), false) := by
  refine ⟨_, _, run_complete r true, rfl, rfl, rfl, ?_⟩
  intro i
  unfold applyReport
  rw [if_pos ⟨h1, h2, h0⟩]

example : ∃ st v, Steps ⟨3, fun _ => 275⟩ true start st ∧ st.tool = .got (.ok v) ∧ st.ctx = .routine 3 ∧ v = 275 ∧
    ∀ i, applyReport 275 v i = ((EHOOKNOTRUN : Int), false) :=
  C72_reported_not_run ⟨3, fun _ => 275⟩ rfl (by decide) (by decide)

/-! ### C73 -/

/-- **C73, partial** If no signal is sent while the thread is traced and none is pending when the tool attaches, no signal
is lost (other than `SIGSTOP`): each one sent was delivered or is pending. -/
theorem C73_no_signal_lost_partial (r : Routine) (st : St) (h : Steps r true start st) (hd : st.run ≠ .dead) (s : Nat)
    (hs : s ≠ SIGSTOP) : st.sent.count s = st.delivered.count s + st.pend.count s :=
  (inv_steps h).count hd s hs

/-- A signal sent after the thread was released. -/
example : ∃ st, Steps demoRoutine true start st ∧ st.tool = .released true ∧ st.sent.count 15 = 1 ∧
    st.sent.count 15 = st.delivered.count 15 + st.pend.count 15 := by
  have h := ((run_complete demoRoutine true).tail (.restore _ _ SIGTRAP rfl rfl)).tail
    (.arrive _ 15 (by simp) (by decide) (by simp))
  exact ⟨_, h, rfl, rfl, C73_no_signal_lost_partial demoRoutine _ h (by simp) 15 (by decide)⟩

/-- **C73 (negation)** A signal that is sent while the routine runs is lost: the process goes on as if it had never been
sent. -/
theorem C73_signal_lost (r : Routine) (s : Nat) (hs : 1 ≤ s ∧ s ≠ 9) :
    ∃ st, Steps r false start st ∧ st.tool = .released true ∧ st.traced = false ∧ st.run = .running ∧ st.ctx = .own ∧
      st.sent = [s] ∧ st.delivered = [] ∧ st.pend = [] := by
  refine ⟨_, ((((run_k r false 0 (by omega)).tail (.arrive _ s (by simp) hs (by simp))).tail
    (.signalStop _ s rfl rfl ⟨by simp, by simp⟩)).tail (.stopSeen _ s rfl rfl)).tail (.restore _ _ s rfl rfl),
    rfl, rfl, rfl, rfl, rfl, rfl, ?_⟩
  simp

example : ∃ st, Steps demoRoutine false start st ∧ st.tool = .released true ∧ st.traced = false ∧ st.run = .running ∧
    st.ctx = .own ∧ st.sent = [15] ∧ st.delivered = [] ∧ st.pend = [] :=
  C73_signal_lost demoRoutine 15 (by decide)

/-- **C73 (negation)** A signal that is pending when the tool attaches is lost too. -/
theorem C73_pending_signal_lost (r : Routine) (s : Nat) (hs : 1 ≤ s ∧ s < SIGSTOP ∧ s ≠ 9) :
    ∃ st, Steps r false start st ∧ st.tool = .released true ∧ st.traced = false ∧ st.run = .running ∧ st.ctx = .own ∧
      st.sent = [s] ∧ st.delivered = [] ∧ st.pend = [] :=
  ⟨_, ((run_pending r s hs).tail (.stopSeen _ SIGSTOP rfl rfl)).tail (.restore _ _ SIGSTOP rfl rfl),
    rfl, rfl, rfl, rfl, rfl, rfl, rfl⟩

example : ∃ st, Steps demoRoutine false start st ∧ st.tool = .released true ∧ st.traced = false ∧ st.run = .running ∧
    st.ctx = .own ∧ st.sent = [15] ∧ st.delivered = [] ∧ st.pend = [] :=
  C73_pending_signal_lost demoRoutine 15 (by decide)

/-! ### C74 -/

theorem waitLoop_gives_up (T : Nat) (ps : List (Poll × Nat)) (h : ∀ x ∈ ps, Ignored x.1) (ht : ∃ x ∈ ps, T ≤ x.2) :
    waitLoop T ps = some .timeout := by
  induction ps with
  | nil => simp at ht
  | cons x ps ih =>
    obtain ⟨p, t⟩ := x
    have hnext : (if t < T then waitLoop T ps else some .timeout) = some .timeout := by
      split
      · rename_i hlt
        apply ih (fun y hy => h y (by simp [hy]))
        obtain ⟨y, hy, hty⟩ := ht
        rcases List.mem_cons.mp hy with rfl | hy
        · simp only at hty; omega
        · exact ⟨y, hy, hty⟩
      · rfl
    rcases h (p, t) (by simp) with h | h | ⟨q, h, h1, h2, h3⟩
    · simp only at h; subst h; exact hnext
    · simp only at h; subst h; exact hnext
    · simp only at h; subst h
      have e1 : (wifexited q || wcoredump q) = false := by simp [wifexited, wcoredump, h1, h2]
      have e2 : wifstopped q = false := by simp [wifstopped, h3]
      simp only [waitLoop, e1, e2, Bool.false_eq_true, if_false]
      exact hnext

/-- **C74** If the thread does not stop within the time set, the tool gives up with `ETIME`. -/
theorem C74_gives_up (getregs : Bool) (T : Nat) (polls : List (Poll × Nat)) (h : ∀ x ∈ polls, Ignored x.1)
    (ht : ∃ x ∈ polls, T ≤ x.2) : runAndRedirect true true getregs T polls = some ETIME := by
  unfold runAndRedirect
  rw [waitLoop_gives_up T polls h ht]
  rfl

example : runAndRedirect true true true 2 [(.nothing, 0), (.other, 1), (.nothing, 2)] = some ETIME :=
  C74_gives_up true 2 _ (by intro x hx; simp only [List.mem_cons, List.not_mem_nil, or_false] at hx
                            rcases hx with rfl | rfl | rfl
                            · exact Or.inl rfl
                            · exact Or.inr (Or.inl rfl)
                            · exact Or.inl rfl)
    ⟨(.nothing, 2), by simp, by decide⟩

/-- The tool has tried to release the thread in vain, or has ended after that, and the thread is still in the routine. -/
def Abandoned (st : St) : Prop := (st.tool = .released false ∨ st.tool = .exited) ∧ ∃ k, st.ctx = .routine k

theorem abandoned_step {r : Routine} {q : Bool} {a b : St} (h : Abandoned a) (hs : Step r q a b) : Abandoned b := by
  obtain ⟨ht, k, hc⟩ := h
  cases hs <;> simp_all [Abandoned]

/-- **C74 (negation)** Once the tool has given up and found that it cannot restore the running thread, the thread never gets
back to its own code, whatever happens. -/
theorem C74_never_returns (r : Routine) (q : Bool) (st st' : St) (k : Nat) (h : st.tool = .released false)
    (hc : st.ctx = .routine k) (hs : Steps r q st st') : ∃ k', st'.ctx = .routine k' := by
  have : Abandoned st' := by
    induction hs with
    | refl => exact ⟨Or.inl h, k, hc⟩
    | tail _ hs ih => exact abandoned_step ih hs
  exact this.2

theorem run_timeout (r : Routine) (q : Bool) (k : Nat) (hk : k ≤ r.n) :
    Steps r q start ⟨true, .running, .routine k, .released false, [], [], []⟩ :=
  ((run_k r q k hk).tail (.timeout _ rfl rfl)).tail (.restoreFail _ _ rfl rfl)

/-- The hypotheses are met by a time-out after one step. -/
example : ∃ st, Steps demoRoutine true start st ∧ st.tool = .released false ∧
    ∀ st', Steps demoRoutine true st st' → ∃ k', st'.ctx = .routine k' :=
  ⟨_, run_timeout demoRoutine true 1 (by decide), rfl, fun st' h => C74_never_returns _ _ _ st' 1 rfl rfl h⟩

theorem exec_rest (r : Routine) (q : Bool) (st : St) (k j : Nat) (hr : st.run = .running) (hp : st.pend = [])
    (hc : st.ctx = .routine k) (hj : k + j ≤ r.n) : Steps r q st { st with ctx := .routine (k + j) } := by
  induction j with
  | zero => simp only [Nat.add_zero]; rw [← hc]; exact .refl
  | succ j ih => exact (ih (by omega)).tail (.exec _ (k + j) hr hp rfl (by omega))

/-- **C74 (negation)** If the routine comes to its end after the tool has given up and ended, the process is killed. -/
theorem C74_timeout_kills (r : Routine) (q : Bool) (k : Nat) (hk : k ≤ r.n) :
    ∃ st st', Steps r q start st ∧ st.tool = .got .time ∧ st.ctx = .routine k ∧ Steps r q st st' ∧ st'.tool = .exited ∧
      st'.run = .dead := by
  refine ⟨_, ⟨false, .dead, .routine r.n, .exited, [], [], []⟩, (run_k r q k hk).tail (.timeout _ rfl rfl), rfl, rfl, ?_,
    rfl, rfl⟩
  · have h1 : Steps r q ⟨true, .running, .routine k, .got .time, [], [], []⟩
        ⟨false, .running, .routine k, .exited, [], [], []⟩ :=
      (Steps.one (.restoreFail _ _ rfl rfl)).tail (.exitRunning _ _ rfl rfl)
    have h2 := exec_rest r q ⟨false, .running, .routine k, .exited, [], [], []⟩ k (r.n - k) rfl rfl rfl (by omega)
    rw [show k + (r.n - k) = r.n by omega] at h2
    exact (h1.trans h2).tail (.trap _ rfl rfl rfl)

example : ∃ st st', Steps demoRoutine true start st ∧ st.tool = .got .time ∧ st.ctx = .routine 2 ∧
    Steps demoRoutine true st st' ∧ st'.tool = .exited ∧ st'.run = .dead :=
  C74_timeout_kills demoRoutine true 2 (by decide)

/-- **C74, partial** If the tool did not give up waiting, the thread is released in its own code: without signals, when
`restore_threads` has succeeded the thread runs untraced where it was, and `restore_threads` fails only after a
time-out. -/
theorem C74_released_partial (r : Routine) (st : St) (h : Steps r true start st) :
    (st.tool = .released true → st.traced = false ∧ st.run = .running ∧ st.ctx = .own) ∧
    (∀ v st', st.tool = .got (.ok v) → Step r true st st' → st'.tool = .released true) := by
  have hi := (inv_steps h).tool
  refine ⟨fun ht => by rw [ht] at hi; exact hi, ?_⟩
  intro v st' ht hs
  rw [ht] at hi
  simp only [ToolInv] at hi
  cases hs <;> simp_all [Next]

example : ∃ st, Steps demoRoutine true start st ∧ st.tool = .released true ∧ st.ctx = .own := by
  have h := (run_complete demoRoutine true).tail (.restore _ _ SIGTRAP rfl rfl)
  exact ⟨_, h, rfl, ((C74_released_partial demoRoutine _ h).1 rfl).2.2⟩

end Verif.Redirect
