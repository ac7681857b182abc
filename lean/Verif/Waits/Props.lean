import Verif.Waits.Spec

/-! Property C171: a request that is not refused comes to an end. -/

namespace Verif.Waits

open Spec

/-- How many counted functions a thread is inside. -/
def depth (t : Thread) : Nat := (t.map fun f => one f.fn.counted).sum

def total (ts : List Thread) : Nat := (ts.map depth).sum

theorem total_append (a b : List Thread) : total (a ++ b) = total a + total b := by simp [total]

theorem total_cons (t : Thread) (b : List Thread) : total (t :: b) = depth t + total b := by simp [total]

theorem depth_cons (f : Frame) (t : Thread) : depth (f :: t) = one f.fn.counted + depth t := by simp [depth]

theorem flag_total {s : St} (h : Reach s) : s.flag = total s.threads := by
  induction h with
  | init => rfl
  | step _ hs ih =>
    cases hs <;> simp only [total_append, total_cons, depth_cons] at ih ⊢
    case spawn => simpa [depth] using ih
    case exit => simpa [depth] using ih
    all_goals omega

theorem sum_zero {l : List Nat} (h : l.sum = 0) : ∀ x ∈ l, x = 0 := by
  induction l with
  | nil => simp
  | cons a l ih =>
    rw [List.sum_cons] at h
    intro x hx
    rcases List.mem_cons.mp hx with rfl | hx
    · omega
    · exact ih (by omega) x hx

/-- No thread is inside a function that counts when the checks are passed. -/
theorem none_counted {s : St} (h : Reach s) (hp : passes s) : ∀ t ∈ s.threads, ∀ f ∈ t, f.fn.counted = false := by
  have h0 : total s.threads = 0 := (flag_total h).symm.trans hp.1
  intro t ht f hf
  have h1 : depth t = 0 := by
    unfold total at h0
    exact sum_zero h0 _ (List.mem_map_of_mem ht)
  unfold depth at h1
  have h2 := sum_zero h1 _ (List.mem_map_of_mem hf)
  cases hc : f.fn.counted
  · rfl
  · simp [one, hc] at h2

/-- What is held when the checks are passed is held by an unwatched function. -/
theorem held_unwatched {s : St} (h : Reach s) (hp : passes s) {l : Lock} (hl : s.holds l) : inUnwatched s := by
  obtain ⟨t, ht, f, hf, hh, rfl⟩ := hl
  have hc := none_counted h hp t ht f hf
  refine ⟨t, ht, f, hf, ?_⟩
  obtain ⟨fn, b⟩ := f
  simp only at hc hh
  cases fn with
  | alloc a => simp [Fn.counted] at hc
  | dlclose => simp [Fn.counted] at hc
  | dlopen => exact absurd ⟨t, ht, _, hf, hh, rfl⟩ hp.2.1
  | phdrs => exact absurd ⟨t, ht, _, hf, hh, rfl⟩ hp.2.2
  | upkeep a => trivial
  | clock => trivial

theorem run_call (s : St) (c : Call) (ops : List Op) :
    run s [] (c.ops ++ ops) = match (locks c).find? (fun l => decide (s.holds l)) with
      | some l => .waits l
      | none => run s [] ops := by
  cases c <;> simp only [Call.ops, locks, List.cons_append, List.nil_append, run, List.find?_cons, List.find?_nil,
    List.not_mem_nil, false_and, or_false, List.mem_cons, List.erase_cons_head, reduceCtorEq]
  case «open» a =>
    by_cases h1 : s.holds .load
    · simp [h1]
    · by_cases h2 : s.holds (.arena a) <;> simp [h1, h2]
  all_goals
    split <;> rename_i h <;> simp [h]

/-- A request ends exactly if no lock that it needs is held by a thread; otherwise it waits for one of them. -/
theorem serve_eq (s : St) (calls : List Call) :
    serve s calls = match (calls.flatMap locks).find? (fun l => decide (s.holds l)) with
      | some l => .waits l
      | none => .ends := by
  unfold serve
  induction calls with
  | nil => rfl
  | cons c cs ih =>
    rw [List.flatMap_cons, run_call, ih, List.flatMap_cons, List.find?_append]
    cases (locks c).find? (fun l => decide (s.holds l)) <;> rfl

/-- **C171** A request ends exactly if no thread was stopped while it held a lock that the request needs. -/
theorem C171_exactly (s : St) (calls : List Call) :
    serve s calls = .ends ↔ ∀ c ∈ calls, ∀ l ∈ locks c, ¬ s.holds l := by
  rw [serve_eq]
  cases h : (calls.flatMap locks).find? (fun l => decide (s.holds l)) with
  | some l =>
    have h1 := List.find?_some h
    have h2 := List.mem_of_find?_eq_some h
    rw [List.mem_flatMap] at h2
    obtain ⟨c, hc, hl⟩ := h2
    simp only [reduceCtorEq, false_iff]
    intro h3
    exact h3 c hc l hl (of_decide_eq_true h1)
  | none =>
    rw [List.find?_eq_none] at h
    simp only [true_iff]
    intro c hc l hl hh
    exact h l (List.mem_flatMap.mpr ⟨c, hc, hl⟩) (decide_eq_true hh)

/-- **C171** (part) A request that passes the checks ends, whatever it does, if no thread was stopped inside a function that
the checks do not watch. -/
theorem C171_watched_partial {s : St} (h : Reach s) (hp : passes s) (hu : ¬ inUnwatched s) (calls : List Call) :
    serve s calls = .ends :=
  (C171_exactly s calls).mpr fun _ _ _ _ hl => hu (held_unwatched h hp hl)

theorem log_mem_apply (a : Nat) (z : Size) : Call.log ∈ applyCalls a z := by
  unfold applyCalls
  simp

/-- **C171** fails: a request to apply a patch never ends if a thread, possibly the one that serves it, was stopped while
it held the lock of the time zone, although the checks are passed. -/
theorem C171_apply_waits {s : St} (hz : s.holds .zone) (a : Nat) (z : Size) : ∃ l, serve s (applyCalls a z) = .waits l := by
  cases h : serve s (applyCalls a z) with
  | waits l => exact ⟨l, rfl⟩
  | ends => exact absurd hz ((C171_exactly _ _).mp h _ (log_mem_apply a z) _ (by simp [locks]))

/-- **C171** fails: the same for a request to revert a patch that replaced anything. -/
theorem C171_revert_waits {s : St} (hz : s.holds .zone) (a n : Nat) (hn : 0 < n) (z : Size) :
    ∃ l, serve s (revertCalls a n z) = .waits l := by
  cases h : serve s (revertCalls a n z) with
  | waits l => exact ⟨l, rfl⟩
  | ends =>
    refine absurd hz ((C171_exactly _ _).mp h .log ?_ _ (by simp [locks]))
    unfold revertCalls
    simp [Nat.pos_iff_ne_zero.mp hn]

/-- **C171** fails: any request waits if a thread was stopped inside a function of the allocator that is not interposed and
held the arena that the request uses. -/
theorem C171_upkeep_waits {s : St} {a : Nat} (ha : s.holds (.arena a)) (z : Size) :
    (∃ l, serve s (applyCalls a z) = .waits l) ∧ ∀ n, ∃ l, serve s (revertCalls a n z) = .waits l := by
  have key : ∀ calls, Call.memory a ∈ calls → ∃ l, serve s calls = .waits l := by
    intro calls hm
    cases h : serve s calls with
    | waits l => exact ⟨l, rfl⟩
    | ends => exact absurd ha ((C171_exactly _ _).mp h _ hm _ (by simp [locks]))
  refine ⟨key _ ?_, fun n => key _ ?_⟩
  · unfold applyCalls; simp
  · unfold revertCalls; simp

/-- **C171** fails in states that occur: from any state in which a thread is outside of these functions and nobody holds the
lock, the thread may go on to one in which it holds the lock of the time zone, the checks being as before. -/
theorem C171_happens {pre post : List Thread} {n : Nat} (h : Reach ⟨pre ++ [] :: post, n⟩)
    (hz : ¬ St.holds ⟨pre ++ [] :: post, n⟩ .zone) :
    Reach ⟨pre ++ [⟨.clock, true⟩] :: post, n⟩ ∧ St.holds ⟨pre ++ [⟨.clock, true⟩] :: post, n⟩ .zone ∧
      (passes ⟨pre ++ [] :: post, n⟩ → passes ⟨pre ++ [⟨.clock, true⟩] :: post, n⟩) := by
  refine ⟨?_, ⟨[⟨.clock, true⟩], by simp, _, List.mem_singleton_self _, rfl, rfl⟩, ?_⟩
  · have h1 := Reach.step h (.call pre [] post n .clock)
    refine Reach.step (s' := ⟨pre ++ [⟨.clock, true⟩] :: post, n⟩) h1 ?_
    refine .take pre [] post n .clock ?_ ?_
    · intro u hu hh
      refine hz ⟨u, ?_, hh⟩
      rcases List.mem_append.mp hu with hu | hu
      · exact List.mem_append_left _ hu
      · exact List.mem_append_right _ (List.mem_cons_of_mem _ hu)
    · rintro ⟨f, hf, _⟩
      simp at hf
  · rintro ⟨h1, h2, h3⟩
    have key : ∀ l, l ≠ .zone → ¬ St.holds ⟨pre ++ [] :: post, n⟩ l → ¬ St.holds ⟨pre ++ [⟨.clock, true⟩] :: post, n⟩ l := by
      rintro l hl hn ⟨t, ht, f, hf, hh, rfl⟩
      simp only [List.mem_append, List.mem_cons] at ht
      rcases ht with ht | rfl | ht
      · exact hn ⟨t, by simp [ht], f, hf, hh, rfl⟩
      · rw [List.mem_singleton] at hf
        subst hf
        exact hl rfl
      · exact hn ⟨t, by simp [ht], f, hf, hh, rfl⟩
    exact ⟨h1, key _ (by decide) h2, key _ (by decide) h3⟩

/-- **C171** (part) A request that arrives while a thread is inside an interposed function or holds a lock of the loader is
refused. -/
theorem C171_refused_partial {s : St} (h : Reach s) {t : Thread} (ht : t ∈ s.threads) {f : Frame} (hf : f ∈ t)
    (hw : f.fn.counted = true ∨ (f.held = true ∧ (f.fn.lock = .load ∨ f.fn.lock = .write))) : ¬ passes s := by
  intro hp
  rcases hw with hc | ⟨hh, hl | hl⟩
  · rw [none_counted h hp t ht f hf] at hc
    cases hc
  · exact hp.2.1 ⟨t, ht, f, hf, hh, hl⟩
  · exact hp.2.2 ⟨t, ht, f, hf, hh, hl⟩

/-! ### Concrete cases -/

/-- A program with one thread, stopped inside `localtime_r`. -/
def demoClock : St := ⟨[[⟨.clock, true⟩]], 0⟩

theorem demo_clock : Reach demoClock ∧ passes demoClock := by
  have h := C171_happens (pre := []) (post := []) .init (by decide)
  exact ⟨h.1, h.2.2 (by decide)⟩

/-- Two threads, one stopped inside `malloc_trim`, the other one outside. -/
def demoTrim : St := ⟨[[⟨.upkeep 0, true⟩], []], 0⟩

theorem demo_trim : Reach demoTrim := by
  have h1 := Reach.step .init (.spawn [] [[]] 0)
  have h2 := Reach.step h1 (.call [] [] [[]] 0 (.upkeep 0))
  exact Reach.step h2 (.take [] [] [[]] 0 (.upkeep 0) (by decide) (by decide))

-- C171_exactly
example : serve ⟨[[⟨.clock, false⟩], []], 0⟩ (applyCalls 0 ⟨2, 1, 1⟩) = .ends :=
  (C171_exactly _ _).mpr fun _ _ l _ h => by
    obtain ⟨t, ht, f, hf, hh, _⟩ := h
    simp only [List.mem_cons, List.not_mem_nil, or_false] at ht
    rcases ht with rfl | rfl
    · simp only [List.mem_singleton] at hf
      subst hf
      cases hh
    · cases hf

-- C171_watched_partial
example : serve ⟨[[], []], 0⟩ (applyCalls 0 ⟨2, 1, 1⟩) = .ends :=
  C171_watched_partial (.step .init (.spawn [] [[]] 0)) (by decide) (by simp [inUnwatched]) _

-- C171_apply_waits
example : passes demoClock ∧ serve demoClock (applyCalls 0 ⟨2, 1, 1⟩) = .waits .zone := ⟨demo_clock.2, by decide +kernel⟩

example : ∃ l, serve demoClock (applyCalls 0 ⟨2, 1, 1⟩) = .waits l := C171_apply_waits (by decide) 0 ⟨2, 1, 1⟩

-- C171_revert_waits
example : ∃ l, serve demoClock (revertCalls 0 2 ⟨2, 1, 1⟩) = .waits l := C171_revert_waits (by decide) 0 2 (by decide) _

-- C171_upkeep_waits
example : Reach demoTrim ∧ passes demoTrim ∧ ∃ l, serve demoTrim (applyCalls 0 ⟨1, 0, 0⟩) = .waits l :=
  ⟨demo_trim, by decide, (C171_upkeep_waits (by decide) _).1⟩

-- C171_happens
example : Reach demoClock := demo_clock.1

-- C171_refused_partial
example : ¬ passes ⟨[[⟨.alloc 0, true⟩]], 1⟩ := by
  have h1 := Reach.step .init (.call [] [] [] 0 (.alloc 0))
  have h2 := Reach.step h1 (.take [] [] [] _ (.alloc 0) (by decide) (by decide))
  exact C171_refused_partial h2 (List.mem_singleton_self _) (List.mem_singleton_self _) (Or.inl rfl)

end Verif.Waits
