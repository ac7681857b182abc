import Verif.AsUnsafe.Props

/-! # Patch requests while other threads run, in general (C33) -/

namespace Verif.AsUnsafe

theorem steps_trans {n : Nat} {b : Bool} {x y z : St} (h : Steps n b x y) (h' : Steps n b y z) : Steps n b x z := by
  induction h' with
  | refl => exact h
  | tail _ st ih => exact ih.tail st

/-- A running thread goes into `k` nested calls. -/
theorem enter_many {n : Nat} {b : Bool} {t : Nat} (ht : t < n) (k : Nat) (s : St) (hr : runs b s.pc t) :
    Steps n b s { s with flag := s.flag + k, depth := upd s.depth t (s.depth t + k) } := by
  induction k with
  | zero =>
    have : upd s.depth t (s.depth t + 0) = s.depth := by
      funext u; simp only [upd]; split <;> simp_all
    rw [this]
    have e : s.flag + ((0 : Nat) : Int) = s.flag := Int.add_zero _
    rw [e]
    exact .refl
  | succ k ih =>
    have := ih.tail (.enter _ t ht hr)
    have e : upd (upd s.depth t (s.depth t + k)) t (upd s.depth t (s.depth t + k) t + 1) = upd s.depth t (s.depth t + (k + 1)) := by
      funext u; simp only [upd]; split <;> simp [Nat.add_assoc]
    simp only [e] at this
    rw [Int.natCast_succ, ← Int.add_assoc]
    exact this

/-- A running thread returns from `k` nested calls. -/
theorem leave_many {n : Nat} {b : Bool} {t : Nat} (ht : t < n) (k : Nat) (s : St) (hr : runs b s.pc t) (hk : k ≤ s.depth t) :
    Steps n b s { s with flag := s.flag - k, depth := upd s.depth t (s.depth t - k) } := by
  induction k with
  | zero =>
    have : upd s.depth t (s.depth t - 0) = s.depth := by
      funext u; simp only [upd]; split <;> simp_all
    rw [this]
    have e : s.flag - ((0 : Nat) : Int) = s.flag := Int.sub_zero _
    rw [e]
    exact .refl
  | succ k ih =>
    have := (ih (by omega)).tail (.leave _ t ht hr (by simp [upd]; omega))
    have e : upd (upd s.depth t (s.depth t - k)) t (upd s.depth t (s.depth t - k) t - 1) = upd s.depth t (s.depth t - (k + 1)) := by
      funext u; simp only [upd]; split
      · simp [Nat.sub_sub]
      · rfl
    simp only [e] at this
    rw [Int.natCast_succ, ← Int.sub_sub]
    exact this

/-- **C33** (why the other threads must be stopped) In any process with two threads, out of all calls: if one thread goes into any number of calls while a request on the other is
between its compare-and-swap and its unlocking, the counter is that much too low after both are done. -/
theorem C33_counter_off_always (n t h k : Nat) (ht : t < n) (hh : h < n) (hth : t ≠ h) (s : St) (hp : s.pc = .idle) (he : s.err = 0)
    (hf : s.flag = 0) (hd : ∀ u, s.depth u = 0) (hl : s.load = ⟨none, 0⟩) (hw : s.write = ⟨none, 0⟩) :
    Steps n false s { s with flag := -(k : Int) } := by
  have a1 : Steps n false s { s with pc := .started h } := .tail .refl (.request s h hh hp)
  have a2 := a1.tail (.dlFree _ h rfl he (by simp [hl]) (by simp [hw]))
  have ae : assertErr { s with pc := .started h } = 0 := by simp [assertErr, hl, hw, he]
  rw [ae] at a2
  have a3 := a2.tail (.casOk _ h rfl hf)
  have a4 := steps_trans a3 (enter_many (t := t) ht k _ ⟨hth, rfl⟩)
  have a5 := a4.tail (.unlock _ h rfl)
  have a6 := steps_trans a5 (leave_many (t := t) ht k _ (.inr rfl) (by simp [upd]))
  have a7 := a6.tail (.serve _ h 0 0 rfl (by simp [upd, hd, Ne.symm hth]) (by simp [hl]) (by simp [hw]))
  have a8 := a7.tail (.finish _ h 0 rfl)
  have e : upd (upd s.depth t (s.depth t + k)) t (upd s.depth t (s.depth t + k) t - k) = s.depth := by
    funext u; simp only [upd]; split <;> simp_all
  simp only [e, Int.zero_sub] at a8
  rw [← he, ← hp] at a8
  exact a8

/-- **C33** (negation without stopping the other threads) In any such process a request proceeds although a thread is inside calls, as many as there were during the earlier request. -/
theorem C33_broken_always (n t h k : Nat) (ht : t < n) (hh : h < n) (hth : t ≠ h) (s : St) (hp : s.pc = .idle) (he : s.err = 0)
    (hf : s.flag = 0) (hd : ∀ u, s.depth u = 0) (hl : s.load = ⟨none, 0⟩) (hw : s.write = ⟨none, 0⟩) :
    ∃ s', Steps n false s s' ∧ s'.pc = .locked h ∧ s'.depth t = k := by
  have b := C33_counter_off_always n t h k ht hh hth s hp he hf hd hl hw
  have b1 := steps_trans b (enter_many (t := t) ht k _ (show runs false s.pc t by rw [hp]; trivial))
  have b2 := b1.tail (.request _ h hh hp)
  have b3 := b2.tail (.dlFree _ h rfl he (by simp [hl]) (by simp [hw]))
  have b4 := b3.tail (.casOk _ h rfl (by simp; omega))
  exact ⟨_, b4, rfl, by simp [upd, hd]⟩

/-- **C33** (the other side of it) With the counter off, requests are refused although no thread is inside a call: a request on any thread, by a tool that stops the others, is in all
executions either still under way or has been answered with EAGAIN, the counter being as it was, so that the next request finds the same. -/
theorem C33_refused_always (n h : Nat) (s s' : St) (hh : s.pc = .started h) (he : s.err = 0) (hf : s.flag ≠ 0) (st : Steps n true s s') :
    (s'.pc = .started h ∨ s'.pc = .checked h ∨ s'.pc = .done h EAGAIN) ∧ s'.flag = s.flag ∨
      ∃ s'', Steps n true s s'' ∧ s''.pc = .done h EAGAIN ∧ s''.flag = s.flag ∧ Steps n true s'' s' := by
  suffices H : (((s'.pc = .started h ∧ s'.err = 0) ∨ s'.pc = .checked h ∨ s'.pc = .done h EAGAIN) ∧ s'.flag = s.flag) ∨
      ∃ s'', Steps n true s s'' ∧ s''.pc = .done h EAGAIN ∧ s''.flag = s.flag ∧ Steps n true s'' s' by
    rcases H with ⟨H | H, e⟩ | H
    · exact .inl ⟨.inl H.1, e⟩
    · exact .inl ⟨.inr H, e⟩
    · exact .inr H
  induction st with
  | refl => exact .inl ⟨.inl ⟨hh, he⟩, rfl⟩
  | @tail u v su st ih =>
    rcases ih with ⟨hpc, e⟩ | ⟨w, w1, w2, w3, w4⟩
    · rcases hpc with ⟨p, pe⟩ | p | p
      · cases st with
        | enter t _ hr | leave t _ hr _ | lockLoad t _ _ hr _ _ | lockWrite t _ _ hr _ _ | waitLoad t _ _ hr _ _ | waitWrite t _ _ hr _ _
        | unlockLoad t _ hr _ | unlockWrite t _ hr _ => rw [p] at hr; cases hr.2
        | request h' _ q => rw [p] at q; cases q
        | refused h' q q' => exact absurd pe q'
        | dlBusy h' q _ _ => rw [p] at q; cases q; exact .inl ⟨.inr (.inr rfl), e⟩
        | dlFree h' q _ _ _ => rw [p] at q; cases q; exact .inl ⟨.inr (.inl rfl), e⟩
        | casOk h' q _ | casBusy h' q _ | unlock h' q | serve h' _ _ q _ _ _ | finish h' _ q => rw [p] at q; cases q
      · cases st with
        | enter t _ hr | leave t _ hr _ | lockLoad t _ _ hr _ _ | lockWrite t _ _ hr _ _ | waitLoad t _ _ hr _ _ | waitWrite t _ _ hr _ _
        | unlockLoad t _ hr _ | unlockWrite t _ hr _ => rw [p] at hr; cases hr.2
        | request h' _ q | refused h' q _ | dlBusy h' q _ _ | dlFree h' q _ _ _ | unlock h' q | serve h' _ _ q _ _ _ | finish h' _ q => rw [p] at q; cases q
        | casOk h' q q' => exact absurd (e ▸ q') hf
        | casBusy h' q _ => rw [p] at q; cases q; exact .inl ⟨.inr (.inr rfl), e⟩
      · exact .inr ⟨u, su, p, e, .tail .refl st⟩
    · exact .inr ⟨w, w1, w2, w3, w4.tail st⟩

/-- Three threads, of which the last goes into five calls. -/
example : Steps 3 false (start 0) { start 0 with flag := -5 } :=
  C33_counter_off_always 3 2 0 5 (by decide) (by decide) (by decide) (start 0) rfl rfl rfl (fun _ => rfl) rfl rfl

example : ∃ s', Steps 3 false (start 0) s' ∧ s'.pc = .locked 0 ∧ s'.depth 2 = 5 :=
  C33_broken_always 3 2 0 5 (by decide) (by decide) (by decide) (start 0) rfl rfl rfl (fun _ => rfl) rfl rfl

/-- The request is answered. -/
example : ∃ s', Steps 3 true { start 0 with flag := -5, pc := .started 1 } s' ∧ s'.pc = .done 1 EAGAIN ∧ s'.flag = -5 ∧
    (((s'.pc = .started 1 ∨ s'.pc = .checked 1 ∨ s'.pc = .done 1 EAGAIN) ∧ s'.flag = -5) ∨
      ∃ s'', Steps 3 true { start 0 with flag := -5, pc := .started 1 } s'' ∧ s''.pc = .done 1 EAGAIN ∧ s''.flag = -5 ∧ Steps 3 true s'' s') := by
  have a : Steps 3 true { start 0 with flag := -5, pc := .started 1 } _ := .tail .refl (.dlFree _ 1 rfl rfl rfl rfl)
  have b := a.tail (.casBusy _ 1 rfl (by simp [start]))
  exact ⟨_, b, rfl, rfl, C33_refused_always 3 1 _ _ rfl rfl (by simp [start]) b⟩

end Verif.AsUnsafe
