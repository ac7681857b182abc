import Verif.AsUnsafe.Model

/-! C33 (no request is served while a thread is inside malloc or the loader) and C55 (being busy is temporary). -/

namespace Verif.AsUnsafe

theorem total_upd (f : Nat → Nat) {n t : Nat} (h : t < n) (v : Nat) :
    total n (upd f t v) + f t = total n f + v := by
  induction n with
  | zero => omega
  | succ n ih =>
    by_cases e : t = n
    · subst e
      have : ∀ k, k ≤ t → total k (upd f t v) = total k f := by
        intro k hk
        induction k with
        | zero => rfl
        | succ k ik => simp only [total, ik (by omega)]; simp [upd, show k ≠ t by omega]
      simp only [total, this t (Nat.le_refl _)]
      simp [upd]; omega
    · have := ih (by omega)
      simp only [total]
      have e2 : upd f t v n = f n := by simp [upd, show n ≠ t by omega]
      omega

theorem total_pos {f : Nat → Nat} {n t : Nat} (h : t < n) : f t ≤ total n f := by
  induction n with
  | zero => omega
  | succ n ih =>
    simp only [total]
    by_cases e : t = n
    · subst e; omega
    · have := ih (by omega); omega

theorem total_zero {f : Nat → Nat} {n : Nat} : total n f = 0 ↔ ∀ t < n, f t = 0 := by
  induction n with
  | zero => simp [total]
  | succ n ih =>
    simp only [total]
    constructor
    · intro h t ht
      by_cases e : t = n
      · subst e; omega
      · exact ih.1 (by omega) t (by omega)
    · intro h
      have := ih.2 (fun t ht => h t (by omega))
      have := h n (by omega)
      omega

/-- The busy word of a lock tells if it is held. -/
def LockOk (l : Lock) : Prop := l.word = 0 ↔ l.holder = none

/-- What holds in every state of a process whose threads are stopped while a request is served. -/
structure Inv (n : Nat) (s : St) : Prop where
  load : LockOk s.load
  write : LockOk s.write
  flag : s.flag = total n s.depth + (match s.pc with | .locked _ => 1 | _ => 0)
  held : match s.pc with
    | .checked _ => s.load.holder = none ∧ s.write.holder = none
    | .locked _ => s.load.holder = none ∧ s.write.holder = none ∧ ∀ t < n, s.depth t = 0
    | .serving h => (∀ t < n, t ≠ h → s.depth t = 0) ∧ (∀ t, t ≠ h → s.load.holder ≠ some t ∧ s.write.holder ≠ some t)
    | _ => True

theorem inv_start (n : Nat) (err : Err) : Inv n (start err) := by
  refine ⟨by simp [LockOk, start], by simp [LockOk, start], ?_, trivial⟩
  have : total n (fun _ => 0) = 0 := total_zero.2 (fun _ _ => rfl)
  simp [start, this]

theorem inv_step {n : Nat} {s s' : St} (h : Step n true s s') (i : Inv n s) : Inv n s' := by
  obtain ⟨il, iw, ifl, ih⟩ := i
  cases h with
  | enter t ht hr =>
    have e := total_upd s.depth ht (s.depth t + 1)
    refine ⟨il, iw, ?_, ?_⟩
    · simp only []; rw [ifl]; omega
    · simp only []
      cases hp : s.pc <;> simp only [hp, runs, Bool.true_eq_false, and_false, or_false] at hr ih ⊢
      refine ⟨fun u hu hne => ?_, ih.2⟩
      simp [upd, show u ≠ t by omega, ih.1 u hu hne]
  | leave t ht hr hd =>
    have e := total_upd s.depth ht (s.depth t - 1)
    refine ⟨il, iw, ?_, ?_⟩
    · simp only []; rw [ifl]; omega
    · simp only []
      cases hp : s.pc <;> simp only [hp, runs, Bool.true_eq_false, and_false, or_false] at hr ih ⊢
      refine ⟨fun u hu hne => ?_, ih.2⟩
      simp [upd, show u ≠ t by omega, ih.1 u hu hne]
  | lockLoad t w ht hr hn hw =>
    refine ⟨by simp [LockOk]; omega, iw, ifl, ?_⟩
    simp only []
    cases hp : s.pc <;> simp only [hp, runs, Bool.true_eq_false, and_false, or_false] at hr ih ⊢
    exact ⟨ih.1, fun u hu => ⟨by simp; omega, (ih.2 u hu).2⟩⟩
  | lockWrite t w ht hr hn hw =>
    refine ⟨il, by simp [LockOk]; omega, ifl, ?_⟩
    simp only []
    cases hp : s.pc <;> simp only [hp, runs, Bool.true_eq_false, and_false, or_false] at hr ih ⊢
    exact ⟨ih.1, fun u hu => ⟨(ih.2 u hu).1, by simp; omega⟩⟩
  | waitLoad t u ht hr hu hne =>
    refine ⟨by simp [LockOk], iw, ifl, ?_⟩
    simp only []
    cases hp : s.pc <;> simp only [hp, runs, Bool.true_eq_false, and_false, or_false] at hr ih ⊢
    exact ⟨ih.1, fun x hx => ⟨by have := (ih.2 x hx).1; rw [hu] at this; exact this, (ih.2 x hx).2⟩⟩
  | waitWrite t u ht hr hu hne =>
    refine ⟨il, by simp [LockOk], ifl, ?_⟩
    simp only []
    cases hp : s.pc <;> simp only [hp, runs, Bool.true_eq_false, and_false, or_false] at hr ih ⊢
    exact ⟨ih.1, fun x hx => ⟨(ih.2 x hx).1, by have := (ih.2 x hx).2; rw [hu] at this; exact this⟩⟩
  | unlockLoad t ht hr hh =>
    refine ⟨by simp [LockOk], iw, ifl, ?_⟩
    simp only []
    cases hp : s.pc <;> simp only [hp, runs, Bool.true_eq_false, and_false, or_false] at hr ih ⊢
    exact ⟨ih.1, fun x hx => ⟨by simp, (ih.2 x hx).2⟩⟩
  | unlockWrite t ht hr hh =>
    refine ⟨il, by simp [LockOk], ifl, ?_⟩
    simp only []
    cases hp : s.pc <;> simp only [hp, runs, Bool.true_eq_false, and_false, or_false] at hr ih ⊢
    exact ⟨ih.1, fun x hx => ⟨(ih.2 x hx).1, by simp⟩⟩
  | request h hn hp =>
    exact ⟨il, iw, by simpa [hp] using ifl, trivial⟩
  | refused h hp he =>
    exact ⟨il, iw, by simpa [hp] using ifl, trivial⟩
  | dlBusy h hp he hw =>
    exact ⟨il, iw, by simpa [hp] using ifl, trivial⟩
  | dlFree h hp he h1 h2 =>
    exact ⟨il, iw, by simpa [hp] using ifl, il.1 h1, iw.1 h2⟩
  | casOk h hp hf =>
    simp only [hp] at ifl ih
    have h0 : total n s.depth = 0 := by omega
    exact ⟨il, iw, by simp [h0], ih.1, ih.2, total_zero.1 h0⟩
  | casBusy h hp hf =>
    exact ⟨il, iw, by simpa [hp] using ifl, trivial⟩
  | unlock h hp =>
    simp only [hp] at ifl ih
    have h0 : total n s.depth = 0 := total_zero.2 ih.2.2
    exact ⟨il, iw, by simp [h0], fun t ht _ => ih.2.2 t ht, fun t _ => ⟨by rw [ih.1]; simp, by rw [ih.2.1]; simp⟩⟩
  | serve h ret e hp hd h1 h2 =>
    exact ⟨il, iw, by simpa [hp] using ifl, trivial⟩
  | finish h ret hp =>
    exact ⟨il, iw, by simpa [hp] using ifl, trivial⟩

theorem inv_steps {n : Nat} {s s' : St} (h : Steps n true s s') (i : Inv n s) : Inv n s' := by
  induction h with
  | refl => exact i
  | tail _ h ih => exact inv_step h ih

/-- C33: in every execution of a process, with any number of threads that allocate, free and load as they like, any
number of patch requests, and the other threads stopped during a request: a request proceeds (`unlock` is the step by
which it does) only when no thread is inside an interposed call or holds a loader lock. -/
theorem C33_proceeds_only_when_idle {n : Nat} {err : Err} {s : St} {h : Nat} (hs : Steps n true (start err) s)
    (hp : s.pc = .locked h) :
    (∀ t < n, s.depth t = 0) ∧ s.load.holder = none ∧ s.write.holder = none := by
  have := (inv_steps hs (inv_start n err)).held
  rw [hp] at this
  exact ⟨this.2.2, this.1, this.2.1⟩

/-- All the while the request is served, no other thread is inside such a call or holds such a lock. -/
theorem C33_others_outside_while_served {n : Nat} {err : Err} {s : St} {h : Nat} (hs : Steps n true (start err) s)
    (hp : s.pc = .serving h) {t : Nat} (ht : t < n) (hne : t ≠ h) :
    s.depth t = 0 ∧ s.load.holder ≠ some t ∧ s.write.holder ≠ some t := by
  have := (inv_steps hs (inv_start n err)).held
  rw [hp] at this
  exact ⟨this.1 t ht hne, this.2 t hne⟩

/-- And whenever no request is being served, in particular after one, the busy indication is the number of interposed
calls in progress: zero exactly when no thread is inside one. -/
theorem C33_flag_counts_calls {n : Nat} {err : Err} {s : St} (hs : Steps n true (start err) s)
    (hp : s.pc = .idle) :
    s.flag = total n s.depth ∧ (s.flag = 0 ↔ ∀ t < n, s.depth t = 0) := by
  have := (inv_steps hs (inv_start n err)).flag
  rw [hp] at this
  have e : s.flag = total n s.depth := by simpa using this
  refine ⟨e, ?_⟩
  rw [e, ← total_zero]; omega

/-- A request is refused only for a reason: libpulp's error state, a loader lock held, or a call in progress. -/
theorem C33_busy_only_when_inside {n : Nat} {err : Err} {s s' : St} {h : Nat} (hs : Steps n true (start err) s)
    (hp : s.pc = .started h ∨ s.pc = .checked h) (hst : Step n true s s') (hb : s'.pc = .done h EAGAIN)
    (he : s.err ≠ EAGAIN) :
    (∃ t, s.load.holder = some t ∨ s.write.holder = some t) ∨ ∃ t < n, 0 < s.depth t := by
  have i := inv_steps hs (inv_start n err)
  have hlock : ∀ l : Lock, LockOk l → l.word ≠ 0 → ∃ t, l.holder = some t := by
    intro l hl hw
    cases hh : l.holder with
    | none => exact absurd (hl.2 hh) hw
    | some t => exact ⟨t, rfl⟩
  cases hst with
  | enter t ht hr => rcases hp with hp | hp <;> rw [hp] at hb <;> simp at hb
  | leave t ht hr hd => rcases hp with hp | hp <;> rw [hp] at hb <;> simp at hb
  | lockLoad t w ht hr hn hw => rcases hp with hp | hp <;> rw [hp] at hb <;> simp at hb
  | lockWrite t w ht hr hn hw => rcases hp with hp | hp <;> rw [hp] at hb <;> simp at hb
  | waitLoad t u ht hr hu hne => rcases hp with hp | hp <;> rw [hp] at hb <;> simp at hb
  | waitWrite t u ht hr hu hne => rcases hp with hp | hp <;> rw [hp] at hb <;> simp at hb
  | unlockLoad t ht hr hh => rcases hp with hp | hp <;> rw [hp] at hb <;> simp at hb
  | unlockWrite t ht hr hh => rcases hp with hp | hp <;> rw [hp] at hb <;> simp at hb
  | request h' hn hp' => simp at hb
  | refused h' hp' he' => simp at hb; exact absurd hb.2 he
  | dlBusy h' hp' he' hw =>
    left
    rcases hw with hw | hw
    · obtain ⟨t, ht⟩ := hlock _ i.load hw; exact ⟨t, .inl ht⟩
    · obtain ⟨t, ht⟩ := hlock _ i.write hw; exact ⟨t, .inr ht⟩
  | dlFree h' hp' he' h1 h2 => simp at hb
  | casOk h' hp' hf => simp at hb
  | casBusy h' hp' hf =>
    right
    have hfl := i.flag
    rw [hp'] at hfl
    have h0 : total n s.depth ≠ 0 := by intro h0; rw [h0] at hfl; simp at hfl; exact hf hfl
    apply Classical.byContradiction
    intro hc
    apply h0
    rw [total_zero]
    intro t ht
    apply Classical.byContradiction
    intro hd
    exact hc ⟨t, ht, by omega⟩
  | unlock h' hp' => simp at hb
  | serve h' ret e hp' hd h1 h2 => rcases hp with hp | hp <;> rw [hp] at hp' <;> simp at hp'
  | finish h' ret hp' => simp at hb

/-- The premise that the other threads are stopped is needed (the GDB interface does not see to it): an execution with two
threads at the end of which a request proceeds although a thread is inside a call. -/
theorem C33_broken_when_not_stopped :
    ∃ s h, Steps 2 false (start 0) s ∧ s.pc = .locked h ∧ 0 < s.depth 0 := by
  let s1 : St := { start 0 with pc := .started 1 }
  let s2 : St := { s1 with err := assertErr s1, pc := .checked 1 }
  let s3 : St := { s2 with flag := 1, pc := .locked 1 }
  let s4 : St := { s3 with flag := s3.flag + 1, depth := upd s3.depth 0 (s3.depth 0 + 1) }
  let s5 : St := { s4 with flag := 0, pc := .serving 1 }
  let s6 : St := { s5 with flag := s5.flag - 1, depth := upd s5.depth 0 (s5.depth 0 - 1) }
  let s7 : St := { s6 with err := 0, pc := .done 1 0 }
  let s8 : St := { s7 with pc := .idle }
  let s9 : St := { s8 with flag := s8.flag + 1, depth := upd s8.depth 0 (s8.depth 0 + 1) }
  let s10 : St := { s9 with pc := .started 1 }
  let s11 : St := { s10 with err := assertErr s10, pc := .checked 1 }
  let s12 : St := { s11 with flag := 1, pc := .locked 1 }
  refine ⟨s12, 1, ?_, rfl, by simp [s12, s11, s10, s9, upd]⟩
  refine .tail (u := s11) ?_ (.casOk s11 1 rfl (by simp [s11, s10, s9, s8, s7, s6, s5]))
  refine .tail (u := s10) ?_ (.dlFree s10 1 rfl rfl rfl rfl)
  refine .tail (u := s9) ?_ (.request s9 1 (by decide) rfl)
  refine .tail (u := s8) ?_ (.enter s8 0 (by decide) trivial)
  refine .tail (u := s7) ?_ (.finish s7 1 0 rfl)
  refine .tail (u := s6) ?_ (.serve s6 1 0 0 rfl (by simp [s6, s5, s4, s3, s2, s1, start, upd]) (by simp [s6, s5, s4, s3, s2, s1, start])
    (by simp [s6, s5, s4, s3, s2, s1, start]))
  refine .tail (u := s5) ?_ (.leave s5 0 (by decide) (.inr rfl) (by simp [s5, s4, upd]))
  refine .tail (u := s4) ?_ (.unlock s4 1 rfl)
  refine .tail (u := s3) ?_ (.enter s3 0 (by decide) ⟨by decide, rfl⟩)
  refine .tail (u := s2) ?_ (.casOk s2 1 rfl rfl)
  refine .tail (u := s1) ?_ (.dlFree s1 1 rfl rfl rfl rfl)
  exact .tail .refl (.request _ 1 (by decide) rfl)

/-- A request that proceeds, after another thread was inside two nested calls and left them. -/
example : ∃ s, Steps 2 true (start 0) s ∧ s.pc = .locked 1 := by
  let s1 : St := { start 0 with flag := (start 0).flag + 1, depth := upd (start 0).depth 0 1 }
  let s2 : St := { s1 with flag := s1.flag + 1, depth := upd s1.depth 0 2 }
  let s3 : St := { s2 with flag := s2.flag - 1, depth := upd s2.depth 0 (s2.depth 0 - 1) }
  let s4 : St := { s3 with flag := s3.flag - 1, depth := upd s3.depth 0 (s3.depth 0 - 1) }
  let s5 : St := { s4 with pc := .started 1 }
  let s6 : St := { s5 with err := assertErr s5, pc := .checked 1 }
  let s7 : St := { s6 with flag := 1, pc := .locked 1 }
  refine ⟨s7, ?_, rfl⟩
  refine .tail (u := s6) ?_ (.casOk s6 1 rfl (by simp [s6, s5, s4, s3, s2, s1, start]))
  refine .tail (u := s5) ?_ (.dlFree s5 1 rfl rfl rfl rfl)
  refine .tail (u := s4) ?_ (.request s4 1 (by decide) rfl)
  refine .tail (u := s3) ?_ (.leave s3 0 (by decide) trivial (by simp [s3, s2, upd]))
  refine .tail (u := s2) ?_ (.leave s2 0 (by decide) trivial (by simp [s2, upd]))
  refine .tail (u := s1) ?_ (.enter s1 0 (by decide) trivial)
  exact .tail .refl (.enter _ 0 (by decide) trivial)

/-! ### C55 -/

/-- The error state only changes while a request is made or served. -/
theorem err_stuck_step {n : Nat} {b : Bool} {s s' : St} (h : Step n b s s') (he : s.err = EUNKNOWN)
    (hp : ∀ h, s.pc ≠ .serving h ∧ s.pc ≠ .locked h ∧ s.pc ≠ .checked h) :
    s'.err = EUNKNOWN ∧ ∀ h, s'.pc ≠ .serving h ∧ s'.pc ≠ .locked h ∧ s'.pc ≠ .checked h := by
  have hne : s.err ≠ 0 := by rw [he]; decide
  cases h with
  | enter | leave | lockLoad | lockWrite | waitLoad | waitWrite | unlockLoad | unlockWrite => exact ⟨he, hp⟩
  | request | refused | finish => exact ⟨he, fun h => by simp⟩
  | dlBusy h hp' he' hw => exact absurd he' hne
  | dlFree h hp' he' h1 h2 => exact absurd he' hne
  | casOk h hp' hf => exact absurd hp' (hp h).2.2
  | casBusy h hp' hf => exact absurd hp' (hp h).2.2
  | unlock h hp' => exact absurd hp' (hp h).2.1
  | serve h ret e hp' hd h1 h2 => exact absurd hp' (hp h).1

/-- C55 is false: when a request comes while a thread waits for a loader lock, libpulp answers "try again", but goes into the
error state for good: in no later execution, whether the threads are stopped or not, does a request proceed again. -/
theorem C55_contended_lock_disables_for_good {n : Nat} {b : Bool} {s s' : St} {h : Nat} (hp : s.pc = .started h)
    (hc : s.load.word = 2 ∨ s.write.word = 2) (hst : Step n b s s') (ha : s'.pc = .done h EAGAIN) (he : s.err = 0) :
    s'.err = EUNKNOWN ∧ ∀ u, Steps n b s' u → u.err = EUNKNOWN ∧ ∀ k, u.pc ≠ .locked k ∧ u.pc ≠ .serving k := by
  have hs' : s'.err = EUNKNOWN := by
    cases hst with
    | dlBusy h' hp' he' hw =>
      simp only [assertErr]; rw [if_neg]; rcases hc with hc | hc <;> omega
    | refused h' hp' he' => exact absurd he he'
    | enter | leave | lockLoad | lockWrite | waitLoad | waitWrite | unlockLoad | unlockWrite => rw [hp] at ha; simp at ha
    | request h' hn hp' => simp at ha
    | dlFree h' hp' => simp at ha
    | casOk h' hp' => simp at ha
    | casBusy h' hp' => rw [hp] at hp'; simp at hp'
    | unlock h' hp' => simp at ha
    | serve h' ret e hp' => rw [hp] at hp'; simp at hp'
    | finish => simp at ha
  refine ⟨hs', fun u hu => ?_⟩
  have : u.err = EUNKNOWN ∧ ∀ h, u.pc ≠ .serving h ∧ u.pc ≠ .locked h ∧ u.pc ≠ .checked h := by
    induction hu with
    | refl => exact ⟨hs', fun k => by rw [ha]; simp⟩
    | tail _ hstep ih => exact err_stuck_step hstep ih.1 ih.2
  exact ⟨this.1, fun k => ⟨(this.2 k).2.1, (this.2 k).1⟩⟩

/-- The situation arises: one thread in dlopen, another one waiting for the lock, and a request. -/
example : ∃ s s', Steps 3 true (start 0) s ∧ s.pc = .started 2 ∧ s.load.word = 2 ∧ Step 3 true s s'
    ∧ s'.pc = .done 2 EAGAIN ∧ s.err = 0 := by
  let s1 : St := { start 0 with load := ⟨some 0, 1⟩ }
  let s2 : St := { s1 with load := ⟨some 0, 2⟩ }
  let s3 : St := { s2 with pc := .started 2 }
  refine ⟨s3, _, ?_, rfl, rfl, .dlBusy s3 2 rfl rfl (.inl (by decide)), rfl, rfl⟩
  refine .tail (u := s2) ?_ (.request s2 2 (by decide) rfl)
  refine .tail (u := s1) ?_ (.waitLoad s1 1 0 (by decide) trivial rfl (by decide))
  exact .tail .refl (.lockLoad _ 0 1 (by decide) trivial rfl (.inl rfl))

/-- What holds of C55: being refused as busy leaves the error state as it was, unless a thread waits for a loader lock.
Missing: that case. -/
theorem C55_busy_is_temporary_partial {n : Nat} {b : Bool} {s s' : St} {h : Nat}
    (hp : s.pc = .started h ∨ s.pc = .checked h)
    (hc : s.load.word ≤ 1 ∧ s.write.word ≤ 1) (hst : Step n b s s') :
    s'.err = s.err := by
  cases hst with
  | dlBusy h' hp' he' hw => simp only [assertErr]; rw [if_pos hc]
  | dlFree h' hp' he' => simp only [assertErr]; rw [if_pos hc]
  | serve h' ret e hp' => rcases hp with hp | hp <;> rw [hp] at hp' <;> simp at hp'
  | _ => rfl

/-! ### Further concrete cases -/

/-- Thread 0 has been in a call and left it, thread 1 is made to serve a request. -/
theorem demo_locked : ∃ s, Steps 2 true (start 0) s ∧ s.pc = .locked 1 := by
  have f1 := (Steps.refl (n := 2) (stopped := true) (s := start 0)).tail (.enter _ 0 (by decide) trivial)
  have f2 := f1.tail (.leave _ 0 (by decide) trivial (by simp [upd]))
  have f3 := f2.tail (.request _ 1 (by decide) rfl)
  have f4 := f3.tail (.dlFree _ 1 rfl rfl rfl rfl)
  have f5 := f4.tail (.casOk _ 1 rfl rfl)
  exact ⟨_, f5, rfl⟩

example : ∃ s, Steps 2 true (start 0) s ∧ s.pc = .locked 1 ∧ s.depth 0 = 0 ∧ s.load.holder = none := by
  obtain ⟨s, h, hp⟩ := demo_locked
  have := C33_proceeds_only_when_idle h hp
  exact ⟨s, h, hp, this.1 0 (by decide), this.2.1⟩

example : ∃ s, Steps 2 true (start 0) s ∧ s.pc = .serving 1 ∧ s.depth 0 = 0 := by
  obtain ⟨s, h, hp⟩ := demo_locked
  have h' := h.tail (.unlock s 1 hp)
  exact ⟨_, h', rfl, (C33_others_outside_while_served h' rfl (t := 0) (by decide) (by decide)).1⟩

/-- Thread 0 is inside two calls, thread 1 inside one. -/
example : ∃ s, Steps 2 true (start 0) s ∧ s.pc = .idle ∧ s.flag = total 2 s.depth ∧ s.flag = 3 := by
  have f1 := (Steps.refl (n := 2) (stopped := true) (s := start 0)).tail (.enter _ 0 (by decide) trivial)
  have f2 := f1.tail (.enter _ 0 (by decide) trivial)
  have f3 := f2.tail (.enter _ 1 (by decide) trivial)
  exact ⟨_, f3, rfl, (C33_flag_counts_calls f3 rfl).1, rfl⟩

/-- Thread 0 is inside a call when the request comes. -/
example : ∃ s s', Steps 2 true (start 0) s ∧ Step 2 true s s' ∧ s'.pc = .done 1 EAGAIN ∧
    ((∃ t, s.load.holder = some t ∨ s.write.holder = some t) ∨ ∃ t < 2, 0 < s.depth t) ∧ s'.err = s.err := by
  have f1 := (Steps.refl (n := 2) (stopped := true) (s := start 0)).tail (.enter _ 0 (by decide) trivial)
  have f2 := f1.tail (.request _ 1 (by decide) rfl)
  have f3 := f2.tail (.dlFree _ 1 rfl rfl rfl rfl)
  obtain ⟨s, f, hp, hf, hw, he⟩ : ∃ s, Steps 2 true (start 0) s ∧ s.pc = .checked 1 ∧ s.flag ≠ 0 ∧
      (s.load.word ≤ 1 ∧ s.write.word ≤ 1) ∧ s.err ≠ EAGAIN := ⟨_, f3, rfl, by decide, by decide, by decide⟩
  have st := Step.casBusy (n := 2) (stopped := true) s 1 hp hf
  exact ⟨_, _, f, st, rfl, C33_busy_only_when_inside f (.inr hp) st rfl he, C55_busy_is_temporary_partial (.inr hp) hw st⟩

/-- A thread in dlopen, another one waiting for the lock. -/
example : ∃ s s', Steps 3 true (start 0) s ∧ Step 3 true s s' ∧ s'.err = EUNKNOWN ∧
    ∀ u, Steps 3 true s' u → u.err = EUNKNOWN := by
  have f1 := (Steps.refl (n := 3) (stopped := true) (s := start 0)).tail (.lockLoad _ 0 1 (by decide) trivial rfl (.inl rfl))
  have f2 := f1.tail (.waitLoad _ 1 0 (by decide) trivial rfl (by decide))
  have f3 := f2.tail (.request _ 2 (by decide) rfl)
  obtain ⟨s, f, hp, hw, he⟩ : ∃ s, Steps 3 true (start 0) s ∧ s.pc = .started 2 ∧ s.load.word = 2 ∧ s.err = 0 :=
    ⟨_, f3, rfl, rfl, rfl⟩
  have st := Step.dlBusy (n := 3) (stopped := true) s 2 hp he (.inl (by rw [hw]; decide))
  have := C55_contended_lock_disables_for_good hp (.inl hw) st rfl he
  exact ⟨_, _, f, st, this.1, fun u hu => (this.2 u hu).1⟩

end Verif.AsUnsafe
