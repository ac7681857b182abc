import Verif.PcQueue.Model

/-! C34: the producer-consumer queue is a FIFO of bounded capacity, for all interleavings. -/

namespace Verif.PcQueue

variable {α : Type}

theorem mod_ne {n i j : Nat} (h1 : i < j) (h2 : j < i + n) : i % n ≠ j % n := by
  intro h
  have e1 := Nat.div_add_mod i n
  have e2 := Nat.div_add_mod j n
  rcases Nat.lt_or_ge (i / n) (j / n) with hq | hq
  · have : n * (i / n + 1) ≤ n * (j / n) := Nat.mul_le_mul_left n hq
    rw [Nat.mul_add] at this; omega
  · have : n * (j / n) ≤ n * (i / n) := Nat.mul_le_mul_left n hq
    omega

theorem succ_mod {n i : Nat} (h : 0 < n) : (if n ≤ i % n + 1 then 0 else i % n + 1) = (i + 1) % n := by
  have hl := Nat.mod_lt i h
  have e : (i + 1) % n = (i % n + 1) % n := by simp
  rw [e]
  by_cases h1 : n ≤ i % n + 1
  · rw [if_pos h1, show i % n + 1 = n by omega, Nat.mod_self]
  · rw [if_neg h1]; exact (Nat.mod_eq_of_lt (by omega)).symm

/-- Between `sem_wait` and `sem_post`. -/
def PPc.busy : PPc α → Nat | .idle => 0 | _ => 1
def CPc.busy : CPc α → Nat | .idle => 0 | _ => 1
/-- Stored but not announced. -/
def PPc.stored : PPc α → Nat | .inc => 1 | .wrap => 1 | .post => 1 | _ => 0
/-- Announced but not fetched. -/
def CPc.toFetch : CPc α → Nat | .fetch => 1 | _ => 0

structure Inv (n : Nat) (s : St α) : Prop where
  hn : s.n = n
  sems : s.full + s.empty + s.p.busy + s.c.busy = n
  count : s.acc.length = s.out.length + s.empty + s.p.stored + s.c.toFetch
  head : match s.p with
    | .idle | .store _ | .post => s.head = s.acc.length % n
    | .inc => ∃ k, s.acc.length = k + 1 ∧ s.head = k % n
    | .wrap => ∃ k, s.acc.length = k + 1 ∧ s.head = k % n + 1
  tail : match s.c with
    | .idle | .fetch | .post _ => s.tail = s.out.length % n
    | .inc _ => ∃ k, s.out.length = k + 1 ∧ s.tail = k % n
    | .wrap _ => ∃ k, s.out.length = k + 1 ∧ s.tail = k % n + 1
  buf : ∀ i, s.out.length ≤ i → i < s.acc.length → s.acc[i]? = some (s.elem (i % n))
  fifo : s.out = s.acc.take s.out.length
  ret : match s.c with
    | .inc r | .wrap r | .post r => s.out.getLast? = some r
    | _ => True

theorem inv_init (n : Nat) (e : Nat → α) : Inv n (init n e) := by
  refine ⟨rfl, ?_, rfl, ?_, ?_, ?_, rfl, trivial⟩
  · simp [init, PPc.busy, CPc.busy]
  · simp [init]
  · simp [init]
  · intro i _ h; simp [init] at h

theorem inv_step {n : Nat} (hpos : 0 < n) {s s' : St α} (h : Step s s') (i : Inv n s) : Inv n s' := by
  obtain ⟨hn, hs, hc, hh, ht, hb, hf, hr⟩ := i
  cases h with
  | pWait x hp hfull =>
    rw [hp] at hs hc hh
    refine ⟨hn, ?_, ?_, ?_, ht, hb, hf, hr⟩
    · simp only [PPc.busy] at hs ⊢; omega
    · simpa [PPc.stored] using hc
    · simpa using hh
  | pStore x hp =>
    rw [hp] at hs hc hh
    simp only [PPc.busy, PPc.stored] at hs hc hh
    have hle : s.acc.length < s.out.length + n := by
      have h1 : s.c.toFetch ≤ s.c.busy := by cases s.c <;> simp [CPc.toFetch, CPc.busy]
      omega
    have hle2 : s.out.length ≤ s.acc.length := by omega
    refine ⟨hn, hs, ?_, ?_, ht, ?_, ?_, hr⟩
    · simp only [List.length_append, List.length_cons, List.length_nil, PPc.stored]; omega
    · exact ⟨s.acc.length, by simp, hh⟩
    · intro i h1 h2
      simp only [List.length_append, List.length_cons, List.length_nil] at h2
      by_cases e : i = s.acc.length
      · subst e; simp [hh]
      · have hlt : i < s.acc.length := by omega
        have hne : i % n ≠ s.head := by
          rw [hh]; exact mod_ne hlt (by simp only at h1; omega)
        simp only [if_neg hne]
        rw [List.getElem?_append_left hlt]
        exact hb i h1 hlt
    · simp only
      rw [List.take_append_of_le_length hle2]; exact hf
  | pInc hp =>
    rw [hp] at hs hc hh
    obtain ⟨k, hk, hk2⟩ := hh
    exact ⟨hn, hs, hc, ⟨k, hk, by simp only [hk2]⟩, ht, hb, hf, hr⟩
  | pWrap hp =>
    rw [hp] at hs hc hh
    obtain ⟨k, hk, hk2⟩ := hh
    refine ⟨hn, hs, hc, ?_, ht, hb, hf, hr⟩
    simp only
    rw [hk2, hn, hk, succ_mod hpos]
  | pPost hp =>
    rw [hp] at hs hc hh
    simp only [PPc.busy, PPc.stored] at hs hc hh
    refine ⟨hn, ?_, ?_, hh, ht, hb, hf, hr⟩
    · simp only [PPc.busy]; omega
    · simp only [PPc.stored]; omega
  | cWait hp he =>
    rw [hp] at hs hc ht
    simp only [CPc.busy, CPc.toFetch] at hs hc ht
    refine ⟨hn, ?_, ?_, hh, ht, hb, hf, trivial⟩
    · simp only [CPc.busy]; omega
    · simp only [CPc.toFetch]; omega
  | cFetch hp =>
    rw [hp] at hs hc ht
    simp only [CPc.busy, CPc.toFetch] at hs hc ht
    have hlt : s.out.length < s.acc.length := by omega
    have hx := hb s.out.length (Nat.le_refl _) hlt
    refine ⟨hn, hs, ?_, hh, ?_, ?_, ?_, by simp⟩
    · simp only [CPc.toFetch, List.length_append, List.length_cons, List.length_nil]; omega
    · exact ⟨s.out.length, by simp, ht⟩
    · intro i h1 h2
      exact hb i (by simp at h1; omega) h2
    · simp only [List.length_append, List.length_cons, List.length_nil]
      rw [List.take_add_one, hx, ← hf, ht]; rfl
  | cInc r hp =>
    rw [hp] at hs hc ht hr
    obtain ⟨k, hk, hk2⟩ := ht
    exact ⟨hn, hs, hc, hh, ⟨k, hk, by simp only [hk2]⟩, hb, hf, hr⟩
  | cWrap r hp =>
    rw [hp] at hs hc ht hr
    obtain ⟨k, hk, hk2⟩ := ht
    refine ⟨hn, hs, hc, hh, ?_, hb, hf, hr⟩
    simp only
    rw [hk2, hn, hk, succ_mod hpos]
  | cPost r hp =>
    rw [hp] at hs hc ht
    simp only [CPc.busy, CPc.toFetch] at hs hc ht
    refine ⟨hn, ?_, ?_, hh, ht, hb, hf, trivial⟩
    · simp only [CPc.busy]; omega
    · simp only [CPc.toFetch]; omega

theorem inv_reach {n : Nat} (hpos : 0 < n) {s s' : St α} (h : Reach s s') (i : Inv n s) : Inv n s' := by
  induction h with
  | refl => exact i
  | tail _ h ih => exact inv_step hpos h ih

/-- C34, order and completeness: whatever the interleaving, what the consumer got so far is a prefix of what the producer
put in, in order, without loss or duplication, and at most `n` elements behind; each dequeue returns the element it
fetched. -/
theorem C34_fifo {n : Nat} (hpos : 0 < n) {e : Nat → α} {s : St α} (h : Reach (init n e) s) :
    s.out = s.acc.take s.out.length ∧ s.out.length ≤ s.acc.length ∧ s.acc.length ≤ s.out.length + n
      ∧ ∀ r, s.c = .post r → s.out.getLast? = some r := by
  have i := inv_reach hpos h (inv_init n e)
  have hs := i.sems
  have hc := i.count
  have h1 : s.c.toFetch ≤ s.c.busy := by cases s.c <;> simp [CPc.toFetch, CPc.busy]
  have h2 : s.p.stored ≤ s.p.busy := by cases s.p <;> simp [PPc.stored, PPc.busy]
  refine ⟨i.fifo, by omega, by omega, fun r hr => ?_⟩
  have := i.ret
  rw [hr] at this
  exact this

/-- Once the consumer finds the queue empty and the producer is outside, it has got everything. -/
theorem C34_complete {n : Nat} (hpos : 0 < n) {e : Nat → α} {s : St α} (h : Reach (init n e) s)
    (hp : s.p = .idle) (hc : s.c = .idle) (he : s.empty = 0) : s.out = s.acc := by
  have i := inv_reach hpos h (inv_init n e)
  have hcnt := i.count
  rw [hp, hc, he] at hcnt
  simp only [PPc.stored, CPc.toFetch] at hcnt
  rw [i.fifo]
  exact List.take_of_length_le (by omega)

/-- C34, bounds: every store and every fetch is within the `n` elements of the buffer. -/
theorem C34_in_bounds {n : Nat} (hpos : 0 < n) {e : Nat → α} {s : St α} (h : Reach (init n e) s) :
    (∀ x, s.p = .store x → s.head < n) ∧ (s.c = .fetch → s.tail < n) := by
  have i := inv_reach hpos h (inv_init n e)
  constructor
  · intro x hx
    have := i.head; rw [hx] at this; simp only at this; rw [this]; exact Nat.mod_lt _ hpos
  · intro hx
    have := i.tail; rw [hx] at this; simp only at this; rw [this]; exact Nat.mod_lt _ hpos

/-- C34, no overwriting: no store hits an element that was stored and not fetched. -/
theorem C34_no_overwrite {n : Nat} (hpos : 0 < n) {e : Nat → α} {s : St α} (h : Reach (init n e) s) {x : α}
    (hp : s.p = .store x) {i : Nat} (h1 : s.out.length ≤ i) (h2 : i < s.acc.length) : i % n ≠ s.head := by
  have iv := inv_reach hpos h (inv_init n e)
  have hs := iv.sems; have hc := iv.count; have hh := iv.head
  rw [hp] at hs hc hh
  simp only [PPc.busy, PPc.stored] at hs hc hh
  have h1' : s.c.toFetch ≤ s.c.busy := by cases s.c <;> simp [CPc.toFetch, CPc.busy]
  rw [hh]; exact mod_ne h2 (by omega)

/-- The producer can take a step (with any element to enqueue). -/
def canProduce (s : St α) : Prop := s.p = .idle → 0 < s.full
/-- The consumer can take a step. -/
def canConsume (s : St α) : Prop := s.c = .idle → 0 < s.empty

theorem canProduce_step (s : St α) (x : α) (h : canProduce s) : ∃ s', Step s s' ∧ s'.c = s.c := by
  cases hp : s.p with
  | idle => exact ⟨_, .pWait s x hp (h hp), rfl⟩
  | store y => exact ⟨_, .pStore s y hp, rfl⟩
  | inc => exact ⟨_, .pInc s hp, rfl⟩
  | wrap => exact ⟨_, .pWrap s hp, rfl⟩
  | post => exact ⟨_, .pPost s hp, rfl⟩

theorem canConsume_step (s : St α) (h : canConsume s) : ∃ s', Step s s' ∧ s'.p = s.p := by
  cases hp : s.c with
  | idle => exact ⟨_, .cWait s hp (h hp), rfl⟩
  | fetch => exact ⟨_, .cFetch s hp, rfl⟩
  | inc r => exact ⟨_, .cInc s r hp, rfl⟩
  | wrap r => exact ⟨_, .cWrap s r hp, rfl⟩
  | post r => exact ⟨_, .cPost s r hp, rfl⟩

/-- C34, no deadlock: the two are never blocked both.  A blocked producer means `n` elements in the queue or a consumer on
its way; a blocked consumer means that all that was announced has been fetched. -/
theorem C34_no_deadlock {n : Nat} (hpos : 0 < n) {e : Nat → α} {s : St α} (h : Reach (init n e) s) :
    (canProduce s ∨ canConsume s)
      ∧ (¬ canProduce s → s.c = .idle → s.acc.length = s.out.length + n)
      ∧ (¬ canConsume s → s.p = .idle → s.out = s.acc) := by
  have i := inv_reach hpos h (inv_init n e)
  have hs := i.sems; have hc := i.count
  refine ⟨?_, ?_, ?_⟩
  · apply Classical.byContradiction
    intro hcon
    have h1 : ¬ canProduce s := fun hh => hcon (.inl hh)
    have h2 : ¬ canConsume s := fun hh => hcon (.inr hh)
    simp only [canProduce, canConsume, Classical.not_imp] at h1 h2
    rw [h1.1, h2.1] at hs
    simp only [PPc.busy, CPc.busy] at hs
    omega
  · intro h1 h2
    simp only [canProduce, Classical.not_imp] at h1
    rw [h1.1, h2] at hs hc
    simp only [PPc.busy, CPc.busy, PPc.stored, CPc.toFetch] at hs hc
    omega
  · intro h1 h2
    simp only [canConsume, Classical.not_imp] at h1
    exact C34_complete hpos h h2 h1.1 (by omega)

/-- A run in which the queue of one element wraps around: 7 is stored, announced, and fetched, then 8 is stored. -/
example : ∃ s : St Nat, Reach (init 1 fun _ => 0) s ∧ s.acc = [7, 8] ∧ s.out = [7] := by
  let s0 : St Nat := init 1 fun _ => 0
  let s1 : St Nat := { s0 with full := s0.full - 1, p := .store 7 }
  let s2 : St Nat := { s1 with elem := fun i => if i = s1.head then 7 else s1.elem i, p := .inc, acc := s1.acc ++ [7] }
  let s3 : St Nat := { s2 with head := s2.head + 1, p := .wrap }
  let s4 : St Nat := { s3 with head := if s3.n ≤ s3.head then 0 else s3.head, p := .post }
  let s5 : St Nat := { s4 with empty := s4.empty + 1, p := .idle }
  let s6 : St Nat := { s5 with empty := s5.empty - 1, c := .fetch }
  let s7 : St Nat := { s6 with c := .inc (s6.elem s6.tail), out := s6.out ++ [s6.elem s6.tail] }
  let s8 : St Nat := { s7 with tail := s7.tail + 1, c := .wrap (s6.elem s6.tail) }
  let s9 : St Nat := { s8 with tail := if s8.n ≤ s8.tail then 0 else s8.tail, c := .post (s6.elem s6.tail) }
  let s10 : St Nat := { s9 with full := s9.full + 1, c := .idle }
  let s11 : St Nat := { s10 with full := s10.full - 1, p := .store 8 }
  let s12 : St Nat := { s11 with elem := fun i => if i = s11.head then 8 else s11.elem i, p := .inc, acc := s11.acc ++ [8] }
  refine ⟨s12, ?_, rfl, rfl⟩
  refine .tail (u := s11) ?_ (.pStore s11 8 rfl)
  refine .tail (u := s10) ?_ (.pWait s10 8 rfl (by decide))
  refine .tail (u := s9) ?_ (.cPost s9 _ rfl)
  refine .tail (u := s8) ?_ (.cWrap s8 _ rfl)
  refine .tail (u := s7) ?_ (.cInc s7 _ rfl)
  refine .tail (u := s6) ?_ (.cFetch s6 rfl)
  refine .tail (u := s5) ?_ (.cWait s5 rfl (by decide))
  refine .tail (u := s4) ?_ (.pPost s4 rfl)
  refine .tail (u := s3) ?_ (.pWrap s3 rfl)
  refine .tail (u := s2) ?_ (.pInc s2 rfl)
  refine .tail (u := s1) ?_ (.pStore s1 7 rfl)
  exact .tail .refl (.pWait s0 7 rfl (by decide))

/-! ### Further concrete cases -/

/-- A queue of two: 7 and 8 are put in, 7 is taken out, 9 is about to be stored where 7 was. -/
theorem demo_wrapped : ∃ s : St Nat, Reach (init 2 fun _ => 0) s ∧ s.p = .store 9 ∧ s.acc = [7, 8] ∧ s.out = [7] ∧
    s.head = 0 ∧ s.c = .idle := by
  have f := Reach.refl (s := init 2 fun _ => 0)
  have f := f.tail (.pWait _ 7 rfl (by decide))
  have f := f.tail (.pStore _ 7 rfl)
  have f := f.tail (.pInc _ rfl)
  have f := f.tail (.pWrap _ rfl)
  have f := f.tail (.pPost _ rfl)
  have f := f.tail (.pWait _ 8 rfl (by decide))
  have f := f.tail (.pStore _ 8 rfl)
  have f := f.tail (.pInc _ rfl)
  have f := f.tail (.pWrap _ rfl)
  have f := f.tail (.pPost _ rfl)
  have f := f.tail (.cWait _ rfl (by decide))
  have f := f.tail (.cFetch _ rfl)
  have f := f.tail (.cInc _ _ rfl)
  have f := f.tail (.cWrap _ _ rfl)
  have f := f.tail (.cPost _ _ rfl)
  have f := f.tail (.pWait _ 9 rfl (by decide))
  exact ⟨_, f, rfl, rfl, rfl, rfl, rfl⟩

example : ∃ s : St Nat, Reach (init 2 fun _ => 0) s ∧ s.out = s.acc.take 1 ∧ s.head < 2 ∧ 1 % 2 ≠ s.head ∧
    (canProduce s ∨ canConsume s) := by
  obtain ⟨s, h, hp, ha, ho, hh, hc⟩ := demo_wrapped
  have h1 := (C34_fifo (by decide) h).1
  rw [ho] at h1
  refine ⟨s, h, by rw [ho]; exact h1, (C34_in_bounds (by decide) h).1 _ hp, ?_, (C34_no_deadlock (by decide) h).1⟩
  exact C34_no_overwrite (by decide) h hp (by rw [ho]; decide) (by rw [ha]; decide)

/-- Nothing is left in the queue: everything put in was taken out. -/
example : ∃ s : St Nat, Reach (init 2 fun _ => 0) s ∧ s.acc = [7] ∧ s.out = s.acc := by
  have f := Reach.refl (s := init 2 fun _ => 0)
  have f := f.tail (.pWait _ 7 rfl (by decide))
  have f := f.tail (.pStore _ 7 rfl)
  have f := f.tail (.pInc _ rfl)
  have f := f.tail (.pWrap _ rfl)
  have f := f.tail (.pPost _ rfl)
  have f := f.tail (.cWait _ rfl (by decide))
  have f := f.tail (.cFetch _ rfl)
  have f := f.tail (.cInc _ _ rfl)
  have f := f.tail (.cWrap _ _ rfl)
  have f := f.tail (.cPost _ _ rfl)
  exact ⟨_, f, rfl, C34_complete (by decide) f rfl rfl rfl⟩

end Verif.PcQueue
