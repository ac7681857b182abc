import Verif.Hijack.Model

/-! C35: hijacking is all or nothing, and restoring gives every thread its own registers back. -/

namespace Verif.Hijack

variable {R : Type}

theorem set_same {f : Nat → Prop} {t : Nat} {p : Prop} : set f t p t ↔ p := by simp [set]
theorem set_other {f : Nat → Prop} {t u : Nat} {p : Prop} (h : u ≠ t) : set f t p u ↔ f u := by simp [set, h]
theorem set_true {f : Nat → Prop} {t u : Nat} : set f t True u ↔ u = t ∨ f u := by
  unfold set; constructor
  · rintro (⟨h, -⟩ | ⟨-, h⟩) <;> simp [h]
  · intro h; by_cases e : u = t
    · exact .inl ⟨e, trivial⟩
    · exact .inr ⟨e, h.resolve_left e⟩
theorem set_false {f : Nat → Prop} {t u : Nat} : set f t False u ↔ u ≠ t ∧ f u := by simp [set]

/-- What holds all along, whatever may happen. -/
structure Inv (s : St R) : Prop where
  nodup : (s.threads.map Prod.fst).Nodup
  mem : ∀ t r, (t, r) ∈ s.threads → s.attached t ∧ s.alive t ∧ s.regs t = r
  loose : match s.pc with
    | .scan _ => ∀ t, s.attached t → t ∈ s.threads.map Prod.fst
    | .ret 0 => ∀ t, s.attached t → t ∈ s.threads.map Prod.fst
    | _ => True
  seen : match s.pc with
    | .scan _ => ∀ t, s.alive t → ¬ s.attached t → s.must t ∨ s.young t
    | .ret 0 => ∀ t, s.alive t → ¬ s.attached t → s.young t
    | _ => True
  failed : match s.pc with
    | .scan _ => s.failed = []
    | .unwind f => (f = true ↔ s.failed ≠ [])
    | .ret e => (e = ETHRDDETTACH ↔ s.failed ≠ []) ∧ (e = 0 ∨ e = ETHRDDETTACH ∨ e = ETHRDATTACH)

theorem inv_start (alive : Nat → Prop) (regs : Nat → R) : Inv (start alive regs) := by
  refine ⟨by simp [start], by simp [start], ?_, ?_, ?_⟩
  · intro t h; exact absurd h (by simp [start])
  · intro t h _; exact .inl h
  · rfl

theorem inv_step {may : May} {s s' : St R} (h : Step may s s') (i : Inv s) : Inv s' := by
  obtain ⟨hnd, hm, hl, hs, hf⟩ := i
  cases h with
  | spawn u t hu hua hta =>
    refine ⟨hnd, fun v r hv => ?_, hl, ?_, hf⟩
    · obtain ⟨h1, h2, h3⟩ := hm v r hv
      exact ⟨h1, set_true.2 (.inr h2), h3⟩
    · simp only
      split at hs <;> rename_i hp
      · intro v hv hva
        rcases set_true.1 hv with rfl | hv
        · exact .inr (set_true.2 (.inl rfl))
        · by_cases e : v = t
          · exact .inr (set_true.2 (.inl e))
          · rcases hs v hv hva with h | h
            · exact .inl (set_false.2 ⟨e, h⟩)
            · exact .inr (set_true.2 (.inr h))
      · intro v hv hva
        rcases set_true.1 hv with rfl | hv
        · exact set_true.2 (.inl rfl)
        · exact set_true.2 (.inr (hs v hv hva))
      · trivial
  | exit u hme hu hua =>
    refine ⟨hnd, fun v r hv => ?_, hl, ?_, hf⟩
    · obtain ⟨h1, h2, h3⟩ := hm v r hv
      exact ⟨h1, set_false.2 ⟨fun e => hua (e ▸ h1), h2⟩, h3⟩
    · simp only
      split at hs <;> rename_i hp
      · intro v hv hva; exact hs v (set_false.1 hv).2 hva
      · intro v hv hva; exact hs v (set_false.1 hv).2 hva
      · trivial
  | run u r hu hua =>
    refine ⟨hnd, fun v x hv => ?_, hl, hs, hf⟩
    obtain ⟨h1, h2, h3⟩ := hm v x hv
    refine ⟨h1, h2, ?_⟩
    have : v ≠ u := fun e => hua (e ▸ h1)
    simp [this, h3]
  | known l t hp ht =>
    refine ⟨hnd, hm, hl, ?_, hf⟩
    simp only [hp] at hs hl ⊢
    intro v hv hva
    have hne : v ≠ t := by
      rintro rfl
      obtain ⟨⟨a, r⟩, h1, h2⟩ := List.mem_map.1 ht
      simp only at h2; subst h2
      exact hva (hm a r h1).1
    rcases hs v hv hva with h | h
    · exact .inl (set_false.2 ⟨hne, h⟩)
    · exact .inr h
  | attach l t hp ht ha hna =>
    simp only [hp] at hs hl hf
    refine ⟨?_, ?_, ?_, ?_, hf⟩
    · simpa using ⟨by simpa using ht, hnd⟩
    · intro v r hv
      rcases List.mem_cons.1 hv with e | hv
      · simp only [Prod.mk.injEq] at e; obtain ⟨rfl, rfl⟩ := e
        exact ⟨set_true.2 (.inl rfl), ha, rfl⟩
      · obtain ⟨h1, h2, h3⟩ := hm v r hv
        exact ⟨set_true.2 (.inr h1), h2, h3⟩
    · intro v hv
      rcases set_true.1 hv with rfl | hv
      · simp
      · simp only [List.map_cons, List.mem_cons]; exact .inr (hl v hv)
    · intro v hv hva
      have hva' : v ≠ t ∧ ¬ s.attached v := ⟨fun e => hva (set_true.2 (.inl e)), fun h => hva (set_true.2 (.inr h))⟩
      rcases hs v hv hva'.2 with h | h
      · exact .inl (set_false.2 ⟨hva'.1, h⟩)
      · exact .inr h
  | attachFail l t hp ht =>
    rw [hp] at hf
    exact ⟨hnd, hm, trivial, trivial, by simp [hf]⟩
  | attachWaitFail l t hw hp ht ha hna =>
    rw [hp] at hf
    refine ⟨hnd, fun v r hv => ?_, trivial, trivial, by simp [hf]⟩
    obtain ⟨h1, h2, h3⟩ := hm v r hv
    exact ⟨set_true.2 (.inr h1), h2, h3⟩
  | getregsFail l t hp ht hna =>
    rw [hp] at hf
    exact ⟨hnd, hm, trivial, trivial, by simp [hf]⟩
  | getregsDetachFail l t hw hp ht ha hna =>
    rw [hp] at hf
    refine ⟨hnd, fun v r hv => ?_, trivial, trivial, by simp [hf]⟩
    obtain ⟨h1, h2, h3⟩ := hm v r hv
    exact ⟨set_true.2 (.inr h1), h2, h3⟩
  | readdirFail l hp =>
    rw [hp] at hf
    exact ⟨hnd, hm, trivial, trivial, by simp [hf]⟩
  | again hp hmust =>
    simp only [hp] at hl hf
    exact ⟨hnd, hm, hl, fun v hv _ => .inl hv, hf⟩
  | success hp hmust =>
    simp only [hp] at hl hf hs
    refine ⟨hnd, hm, hl, fun v hv hva => ?_, ?_⟩
    · exact (hs v hv hva).resolve_left (fun h => hmust v h hv)
    · simp [hf]; decide
  | detach f t r rest hp ht =>
    simp only [hp] at hf
    rw [ht] at hnd hm
    simp only [List.map_cons, List.nodup_cons] at hnd
    refine ⟨hnd.2, fun v x hv => ?_, by simp [hp], by simp [hp], by simpa [hp] using hf⟩
    obtain ⟨h1, h2, h3⟩ := hm v x (List.mem_cons_of_mem _ hv)
    refine ⟨set_false.2 ⟨fun e => hnd.1 ?_, h1⟩, h2, h3⟩
    subst e; exact List.mem_map_of_mem hv
  | detachFail f t r rest hp ht =>
    rw [ht] at hnd hm
    simp only [List.map_cons, List.nodup_cons] at hnd
    exact ⟨hnd.2, fun v x hv => hm v x (List.mem_cons_of_mem _ hv), trivial, trivial, by simp⟩
  | unwound f hp ht =>
    simp only [hp] at hf
    refine ⟨hnd, hm, ?_, ?_, ?_⟩
    · cases f <;> exact trivial
    · cases f <;> exact trivial
    · cases f
      · have h0 : ¬ s.failed ≠ [] := fun h => by have := hf.2 h; simp at this
        exact ⟨⟨fun h => absurd h (by decide), fun h => absurd h h0⟩, .inr (.inr (by decide))⟩
      · exact ⟨⟨fun _ => hf.1 rfl, fun _ => by decide⟩, .inr (.inl (by decide))⟩

theorem inv_steps {may : May} {s s' : St R} (h : Steps may s s') (i : Inv s) : Inv s' := by
  induction h with
  | refl => exact i
  | tail _ h ih => exact inv_step h ih

/-! ### Success -/

/-- When no thread ends meanwhile, a thread that escaped the listing so far means one that has to be listed, or a pass to
come. -/
def Chain (s : St R) : Prop := match s.pc with
  | .scan l => ∀ t, s.alive t → ¬ s.attached t → l = true ∨ ∃ u, s.must u ∧ s.alive u ∧ ¬ s.attached u
  | .ret 0 => ∀ t, s.alive t → s.attached t
  | _ => True

theorem chain_step {may : May} (hme : may.exits = false) {s s' : St R} (h : Step may s s') (i : Inv s) (c : Chain s) :
    Chain s' := by
  obtain ⟨hnd, hm, hl, hs, hf⟩ := i
  cases h with
  | spawn u t hu hua hta =>
    unfold Chain at c ⊢
    simp only
    split at c <;> rename_i hp
    · intro v hv hva
      rcases c u hu hua with h | ⟨w, h1, h2, h3⟩
      · exact .inl h
      · refine .inr ⟨w, set_false.2 ⟨fun e => hta (e ▸ h2), h1⟩, set_true.2 (.inr h2), h3⟩
    · exact absurd (c u hu) hua
    · trivial
  | exit u hex hu hua => rw [hme] at hex; simp at hex
  | run u r hu hua => exact c
  | known l t hp ht =>
    simp only [Chain, hp] at c ⊢
    intro v hv hva
    rcases c v hv hva with h | ⟨w, h1, h2, h3⟩
    · exact .inl h
    · refine .inr ⟨w, set_false.2 ⟨?_, h1⟩, h2, h3⟩
      rintro rfl
      obtain ⟨⟨a, r⟩, g1, g2⟩ := List.mem_map.1 ht
      simp only at g2; subst g2
      exact h3 (hm a r g1).1
  | attach l t hp ht ha hna => intro v hv hva; exact .inl rfl
  | attachFail | attachWaitFail | getregsFail | getregsDetachFail | readdirFail => exact trivial
  | again hp hmust => intro v hv hva; exact .inr ⟨v, hv, hv, hva⟩
  | success hp hmust =>
    simp only [Chain, hp] at c
    intro v hv
    apply Classical.byContradiction
    intro hva
    rcases c v hv hva with h | ⟨w, h1, h2, h3⟩
    · simp at h
    · exact hmust w h1 h2
  | detach f t r rest hp ht => simp [Chain, hp]
  | detachFail f t r rest hp ht => exact trivial
  | unwound f hp ht => cases f <;> exact trivial

theorem chain_steps {may : May} (hme : may.exits = false) {s s' : St R} (h : Steps may s s') (i : Inv s) (c : Chain s) :
    Chain s' := by
  induction h with
  | refl => exact c
  | tail h1 h ih => exact chain_step hme h (inv_steps h1 i) ih

/-- C35, success, in any process: the threads attached are exactly those in the list, each once, with the registers they
have saved; and whatever runs was started during the last pass over the task directory. -/
theorem C35_success {may : May} {alive : Nat → Prop} {regs : Nat → R} {s : St R}
    (h : Steps may (start alive regs) s) (hp : s.pc = .ret 0) :
    (s.threads.map Prod.fst).Nodup
      ∧ (∀ t, s.attached t ↔ t ∈ s.threads.map Prod.fst)
      ∧ (∀ t r, (t, r) ∈ s.threads → s.alive t ∧ s.regs t = r)
      ∧ ∀ t, s.alive t → ¬ s.attached t → s.young t := by
  obtain ⟨hnd, hm, hl, hs, -⟩ := inv_steps h (inv_start alive regs)
  simp only [hp] at hl hs
  refine ⟨hnd, fun t => ⟨hl t, fun ht => ?_⟩, fun t r ht => (hm t r ht).2, hs⟩
  obtain ⟨⟨a, r⟩, h1, rfl⟩ := List.mem_map.1 ht
  exact (hm a r h1).1

/-- C35, success, in a process none of whose threads ends while it is hijacked: all threads are attached.  Missing, and
false (see below): processes whose threads end. -/
theorem C35_success_all_partial {may : May} (hme : may.exits = false) {alive : Nat → Prop} {regs : Nat → R} {s : St R}
    (h : Steps may (start alive regs) s) (hp : s.pc = .ret 0) (t : Nat) (ht : s.alive t) : s.attached t := by
  have c := chain_steps hme h (inv_start alive regs) (by
    intro v hv hva; exact .inr ⟨v, hv, hv, hva⟩)
  simp only [Chain, hp] at c
  exact c t ht

/-- C35, the mark `all_threads_hijacked` that later calls go by: it is set exactly when the function has returned 0, so
that nothing is run in a process whose threads were let go after an error. -/
theorem C35_flag {may : May} {alive : Nat → Prop} {regs : Nat → R} {s : St R}
    (h : Steps may (start alive regs) s) : s.hijacked = true ↔ s.pc = .ret 0 := by
  induction h with
  | refl => simp [start]
  | tail _ st ih =>
    cases st <;> simp_all [ETHRDDETTACH, ETHRDATTACH]
    all_goals (split <;> simp)

/-- A thread that starts another one and ends, behind the tool reading the directory: the tool reports that all threads are
hijacked, and one is running. -/
theorem C35_thread_escapes :
    ∃ s : St Unit, Steps ⟨true, false, false⟩ (start (fun t => t = 1 ∨ t = 2) fun _ => ()) s
      ∧ s.pc = .ret 0 ∧ s.alive 3 ∧ ¬ s.attached 3 := by
  let s0 : St Unit := start (fun t => t = 1 ∨ t = 2) fun _ => ()
  -- first pass: 1 is attached; 2 starts 4 and ends before it is listed, 4 is not listed
  let s1 : St Unit := { s0 with attached := set s0.attached 1 True, threads := (1, s0.regs 1) :: s0.threads
                                must := set s0.must 1 False, pc := .scan true }
  let s2 : St Unit := { s1 with alive := set s1.alive 4 True, young := set s1.young 4 True, must := set s1.must 4 False }
  let s3 : St Unit := { s2 with alive := set s2.alive 2 False }
  let s4 : St Unit := { s3 with pc := .scan false, must := s3.alive, young := fun _ => False }
  -- second pass: 1 is listed again; 4 starts 3 and ends before it is listed
  let s5 : St Unit := { s4 with must := set s4.must 1 False }
  let s6 : St Unit := { s5 with alive := set s5.alive 3 True, young := set s5.young 3 True, must := set s5.must 3 False }
  let s7 : St Unit := { s6 with alive := set s6.alive 4 False }
  let s8 : St Unit := { s7 with pc := .ret 0, hijacked := true }
  refine ⟨s8, ?_, rfl, ?_, ?_⟩
  · refine .tail (u := s7) ?_ (.success s7 rfl ?_)
    · refine .tail (u := s6) ?_ (.exit s6 4 rfl ?_ ?_)
      · refine .tail (u := s5) ?_ (.spawn s5 4 3 ?_ ?_ ?_)
        · refine .tail (u := s4) ?_ (.known s4 false 1 rfl ?_)
          · refine .tail (u := s3) ?_ (.again s3 rfl ?_)
            · refine .tail (u := s2) ?_ (.exit s2 2 rfl ?_ ?_)
              · refine .tail (u := s1) ?_ (.spawn s1 2 4 ?_ ?_ ?_)
                · refine .tail .refl (.attach s0 false 1 rfl ?_ ?_ ?_) <;> simp [s0, start]
                all_goals simp [s1, s0, start, set]
              all_goals simp [s2, s1, s0, start, set]
            · intro t; simp [s3, s2, s1, s0, start, set]; omega
          · simp [s4, s3, s2, s1]
        all_goals simp [s5, s4, s3, s2, s1, s0, start, set]
      all_goals simp [s6, s5, s4, s3, s2, s1, s0, start, set]
    · intro t; simp [s7, s6, s5, s4, s3, s2, s1, s0, start, set]; omega
  · simp [s8, s7, s6, set]
  · simp [s8, s7, s6, s5, s4, s3, s2, s1, s0, start, set]

/-! ### Failure -/

/-- Attached threads are in the list, or their detaching failed. -/
def Held (s : St R) : Prop := ∀ t, s.attached t → t ∈ s.threads.map Prod.fst ∨ t ∈ s.failed

theorem held_step {may : May} (h1 : may.waitFails = false) (h2 : may.detachFailsAfterGetregs = false) {s s' : St R}
    (h : Step may s s') (c : Held s) : Held s' := by
  cases h with
  | spawn | exit | run | known | attachFail | getregsFail | readdirFail | again | success => exact c
  | attach l t hp ht ha hna =>
    intro v hv
    rcases set_true.1 hv with rfl | hv
    · exact .inl (by simp)
    · rcases c v hv with h | h
      · exact .inl (by simp only [List.map_cons, List.mem_cons]; exact .inr h)
      · exact .inr h
  | attachWaitFail l t hw => rw [h1] at hw; simp at hw
  | getregsDetachFail l t hw => rw [h2] at hw; simp at hw
  | detach f t r rest hp ht =>
    intro v hv
    obtain ⟨hne, hv⟩ := set_false.1 hv
    rcases c v hv with h | h
    · rw [ht] at h
      simp only [List.map_cons, List.mem_cons] at h
      exact .inl (h.resolve_left hne)
    · exact .inr h
  | detachFail f t r rest hp ht =>
    intro v hv
    rcases c v hv with h | h
    · rw [ht] at h
      simp only [List.map_cons, List.mem_cons] at h
      rcases h with rfl | h
      · exact .inr (List.mem_cons_self ..)
      · exact .inl h
    · exact .inr (List.mem_cons_of_mem _ h)
  | unwound f hp ht => exact c

theorem held_steps {may : May} (h1 : may.waitFails = false) (h2 : may.detachFailsAfterGetregs = false) {s s' : St R}
    (h : Steps may s s') (c : Held s) : Held s' := by
  induction h with
  | refl => exact c
  | tail _ h ih => exact held_step h1 h2 h ih

theorem empty_step {may : May} {s s' : St R} (h : Step may s s')
    (c : ∀ e, s.pc = .ret e → e ≠ 0 → s.threads = []) : ∀ e, s'.pc = .ret e → e ≠ 0 → s'.threads = [] := by
  cases h with
  | spawn | exit | run | known => exact c
  | attach | attachFail | attachWaitFail | getregsFail | getregsDetachFail | readdirFail | again | detachFail =>
    intro e he; simp at he
  | success => intro e he hne; simp only [Pc.ret.injEq] at he; exact absurd he.symm hne
  | detach f t r rest hp ht => intro e he; simp only at he; rw [hp] at he; simp at he
  | unwound f hp ht => intro e _ _; exact ht

theorem empty_steps {may : May} {s s' : St R} (h : Steps may s s')
    (c : ∀ e, s.pc = .ret e → e ≠ 0 → s.threads = []) : ∀ e, s'.pc = .ret e → e ≠ 0 → s'.threads = [] := by
  induction h with
  | refl => exact c
  | tail _ h ih => exact empty_step h ih

/-- C35, failure: the error is `ETHRDDETTACH` exactly when detaching a thread failed; with `ETHRDATTACH` no thread is left
attached, and with `ETHRDDETTACH` only those whose detaching failed.  Missing, and false (see below): when `waitpid`
fails while attaching, or detaching fails after PTRACE_GETREGS failed. -/
theorem C35_failure_partial {may : May} (h1 : may.waitFails = false) (h2 : may.detachFailsAfterGetregs = false)
    {alive : Nat → Prop} {regs : Nat → R} {s : St R}
    (h : Steps may (start alive regs) s) {e : Err} (hp : s.pc = .ret e) (he : e ≠ 0) :
    (e = ETHRDDETTACH ↔ s.failed ≠ []) ∧ (e = ETHRDDETTACH ∨ e = ETHRDATTACH)
      ∧ (∀ t, s.attached t → t ∈ s.failed) ∧ (e = ETHRDATTACH → ∀ t, ¬ s.attached t) := by
  have i := inv_steps h (inv_start alive regs)
  have hf := i.failed
  simp only [hp] at hf
  have hem := empty_steps h (by intro e he; simp [start] at he) e hp he
  have hh := held_steps h1 h2 h (by intro t ht; exact absurd ht (by simp [start]))
  have hat : ∀ t, s.attached t → t ∈ s.failed := by
    intro t ht
    have := hh t ht
    rw [hem] at this
    simpa using this
  refine ⟨hf.1, hf.2.resolve_left he, hat, fun hea t ht => ?_⟩
  have h3 : s.failed = [] := by
    apply Classical.byContradiction
    intro hne
    have := hf.1.2 hne
    rw [hea] at this; exact absurd this (by decide)
  have := hat t ht
  rw [h3] at this; simp at this

/-- The negation: from any state of the listing loop with no thread attached yet, a failing `waitpid` ends in the plain
error with that thread left attached, and stopped for good. -/
theorem C35_wait_failure_leaves_attached {may : May} (hw : may.waitFails = true) (s : St R) (l : Bool) (t : Nat)
    (hp : s.pc = .scan l) (he : s.threads = []) (ha : s.alive t) (hna : ¬ s.attached t) :
    ∃ s', Steps may s s' ∧ s'.pc = .ret ETHRDATTACH ∧ s'.attached t := by
  refine ⟨_, .tail (.tail .refl (.attachWaitFail s l t hw hp (by simp [he]) ha hna))
    (.unwound _ false rfl he), rfl, set_true.2 (.inl rfl)⟩

/-- The same when PTRACE_GETREGS and PTRACE_DETACH fail. -/
theorem C35_getregs_failure_leaves_attached {may : May} (hw : may.detachFailsAfterGetregs = true) (s : St R) (l : Bool) (t : Nat)
    (hp : s.pc = .scan l) (he : s.threads = []) (ha : s.alive t) (hna : ¬ s.attached t) :
    ∃ s', Steps may s s' ∧ s'.pc = .ret ETHRDATTACH ∧ s'.attached t := by
  refine ⟨_, .tail (.tail .refl (.getregsDetachFail s l t hw hp (by simp [he]) ha hna))
    (.unwound _ false rfl he), rfl, set_true.2 (.inl rfl)⟩

/-- A run that fails after attaching to one thread, which is detached. -/
example : ∃ s : St Unit, Steps ⟨true, false, false⟩ (start (fun t => t = 1 ∨ t = 2) fun _ => ()) s
    ∧ s.pc = .ret ETHRDATTACH := by
  let s0 : St Unit := start (fun t => t = 1 ∨ t = 2) fun _ => ()
  let s1 : St Unit := { s0 with attached := set s0.attached 1 True, threads := (1, s0.regs 1) :: s0.threads
                                must := set s0.must 1 False, pc := .scan true }
  let s2 : St Unit := { s1 with pc := .unwind false }
  let s3 : St Unit := { s2 with attached := set s2.attached 1 False, threads := [] }
  refine ⟨_, .tail (u := s3) ?_ (.unwound s3 false rfl rfl), rfl⟩
  refine .tail (u := s2) ?_ (.detach s2 false 1 () [] rfl rfl)
  refine .tail (u := s1) ?_ (.attachFail s1 true 2 rfl (by simp [s1, s0, start]))
  refine .tail .refl (.attach s0 false 1 rfl ?_ ?_ ?_) <;> simp [s0, start]

/-! ### Restoring -/

/-- C35, restoring: whatever happened to the registers meanwhile, each thread whose requests succeed has its own saved
registers again and is released; nothing else changes, and an error is reported exactly when a request failed. -/
theorem C35_restore (setOk detOk : Nat → Bool) (threads : List (Nat × R)) (k : Kern R)
    (hnd : (threads.map Prod.fst).Nodup) :
    let k' := (restoreThreads setOk detOk threads k).1
    (∀ t r, (t, r) ∈ threads → setOk t = true → k'.regs t = r)
      ∧ (∀ t r, (t, r) ∈ threads → detOk t = true → ¬ k'.attached t)
      ∧ (∀ t, t ∉ threads.map Prod.fst → k'.regs t = k.regs t ∧ (k'.attached t ↔ k.attached t))
      ∧ ((restoreThreads setOk detOk threads k).2 = false ↔
          ∀ t ∈ threads.map Prod.fst, setOk t = true ∧ detOk t = true) := by
  induction threads generalizing k with
  | nil => simp [restoreThreads]
  | cons x rest ih =>
    obtain ⟨t, r⟩ := x
    simp only [List.map_cons, List.nodup_cons] at hnd
    simp only [restoreThreads]
    generalize hk1 : (if setOk t then { k with regs := fun v => if v = t then r else k.regs v } else k) = k1
    generalize hk2 : (if detOk t then { k1 with attached := set k1.attached t False } else k1) = k2
    obtain ⟨i1, i2, i3, i4⟩ := ih k2 hnd.2
    have r1 : ∀ v, v ≠ t → k2.regs v = k.regs v := by
      intro v hv; subst hk2; subst hk1
      by_cases h1 : setOk t = true <;> by_cases h2 : detOk t = true <;> simp [h1, h2, hv]
    have r2 : setOk t = true → k2.regs t = r := by
      intro h1; subst hk2; subst hk1
      by_cases h2 : detOk t = true <;> simp [h1, h2]
    have r3 : ∀ v, v ≠ t → (k2.attached v ↔ k.attached v) := by
      intro v hv; subst hk2; subst hk1
      by_cases h1 : setOk t = true <;> by_cases h2 : detOk t = true <;> simp [h1, h2, set_other hv]
    have r4 : detOk t = true → ¬ k2.attached t := by
      intro h2; subst hk2
      simp [h2, set_false]
    refine ⟨?_, ?_, ?_, ?_⟩
    · intro v x hv hs
      rcases List.mem_cons.1 hv with e | hv
      · simp only [Prod.mk.injEq] at e; obtain ⟨rfl, rfl⟩ := e
        rw [(i3 v hnd.1).1]; exact r2 hs
      · exact i1 v x hv hs
    · intro v x hv hs
      rcases List.mem_cons.1 hv with e | hv
      · simp only [Prod.mk.injEq] at e; obtain ⟨rfl, rfl⟩ := e
        rw [(i3 v hnd.1).2]; exact r4 hs
      · exact i2 v x hv hs
    · intro v hv
      simp only [List.map_cons, List.mem_cons, not_or] at hv
      exact ⟨((i3 v hv.2).1).trans (r1 v hv.1), ((i3 v hv.2).2).trans (r3 v hv.1)⟩
    · simp only [Bool.or_eq_false_iff, Bool.not_eq_false', i4, List.map_cons, List.mem_cons, forall_eq_or_imp]
      constructor
      · rintro ⟨⟨a, b⟩, c⟩; exact ⟨⟨b, c⟩, a⟩
      · rintro ⟨⟨b, c⟩, a⟩; exact ⟨⟨a, b⟩, c⟩

/-- Hijacking, any use of the registers by the tool, and restoring: every thread has the registers it had when it was
stopped, and none is attached. -/
theorem C35_round_trip {may : May} {alive : Nat → Prop} {regs : Nat → R} {s : St R}
    (h : Steps may (start alive regs) s) (hp : s.pc = .ret 0) (setOk detOk : Nat → Bool) (used : Nat → R)
    (hother : ∀ t, ¬ s.attached t → used t = s.regs t)
    (hok : (restoreThreads setOk detOk s.threads ⟨used, s.attached⟩).2 = false) :
    ∀ t, (restoreThreads setOk detOk s.threads ⟨used, s.attached⟩).1.regs t = s.regs t
      ∧ ¬ (restoreThreads setOk detOk s.threads ⟨used, s.attached⟩).1.attached t := by
  obtain ⟨hnd, hat, hr, -⟩ := C35_success h hp
  obtain ⟨c1, c2, c3, c4⟩ := C35_restore setOk detOk s.threads ⟨used, s.attached⟩ hnd
  have hall := c4.1 hok
  intro t
  by_cases ht : t ∈ s.threads.map Prod.fst
  · obtain ⟨⟨a, r⟩, h1, rfl⟩ := List.mem_map.1 ht
    obtain ⟨o1, o2⟩ := hall a ht
    exact ⟨(c1 a r h1 o1).trans (hr a r h1).2.symm, c2 a r h1 o2⟩
  · obtain ⟨e1, e2⟩ := c3 t ht
    have hna : ¬ s.attached t := fun h => ht ((hat t).1 h)
    exact ⟨e1.trans (hother t hna), fun h => hna (e2.1 h)⟩

/-- Two threads with different registers, both overwritten: each gets its own back. -/
example : (restoreThreads (fun _ => true) (fun _ => true) [(2, 20), (1, 10)] ⟨fun _ => 99, fun _ => True⟩).1.regs 1 = 10
    ∧ (restoreThreads (fun _ => true) (fun _ => true) [(2, 20), (1, 10)] ⟨fun _ => 99, fun _ => True⟩).1.regs 2 = 20 := by
  decide +kernel

/-! ### Further concrete cases -/

/-- A process of two threads, both attached in the first pass, seen again in the second. -/
theorem demo_hijacked : ∃ s : St Nat, Steps ⟨false, false, false⟩ (start (fun t => t = 1 ∨ t = 2) fun t => 10 * t) s
    ∧ s.pc = .ret 0 ∧ s.alive 2 ∧ s.threads = [(2, 20), (1, 10)] := by
  have f := Steps.refl (may := ⟨false, false, false⟩) (s := start (R := Nat) (fun t => t = 1 ∨ t = 2) fun t => 10 * t)
  have f := f.tail (.attach _ false 1 rfl (by simp [start]) (.inl rfl) (by simp [start]))
  have f := f.tail (.attach _ true 2 rfl (by simp [start]) (.inr rfl) (by simp [start, set]))
  have f := f.tail (.again _ rfl (by intro t; simp only [start, set]; grind))
  have f := f.tail (.known _ false 1 rfl (by simp [start]))
  have f := f.tail (.known _ false 2 rfl (by simp [start]))
  have f := f.tail (.success _ rfl (by intro t; simp only [start, set]; grind))
  exact ⟨_, f, rfl, .inr rfl, rfl⟩

example : ∃ s : St Nat, Steps ⟨false, false, false⟩ (start (fun t => t = 1 ∨ t = 2) fun t => 10 * t) s
    ∧ s.attached 2 ∧ s.regs 1 = 10 := by
  obtain ⟨s, h, hp, ha, ht⟩ := demo_hijacked
  exact ⟨s, h, C35_success_all_partial rfl h hp 2 ha, ((C35_success h hp).2.2.1 1 10 (by simp [ht])).2⟩

example : ∃ s : St Nat, Steps ⟨false, false, false⟩ (start (fun t => t = 1 ∨ t = 2) fun t => 10 * t) s
    ∧ s.hijacked = true := by
  obtain ⟨s, h, hp, -⟩ := demo_hijacked
  exact ⟨s, h, (C35_flag h).2 hp⟩

/-- The tool uses the registers of both threads and gives them back. -/
example : ∃ (s : St Nat) (used : Nat → Nat), s.threads = [(2, 20), (1, 10)] ∧ used 1 = 99 ∧ used 2 = 99 ∧ ∀ t,
    (restoreThreads (fun _ => true) (fun _ => true) s.threads ⟨used, s.attached⟩).1.regs t = s.regs t := by
  classical
  obtain ⟨s, h, hp, ha, ht⟩ := demo_hijacked
  have ha := (C35_success h hp).2.1
  rw [ht] at ha
  refine ⟨s, fun t => if s.attached t then 99 else s.regs t, ht, if_pos ((ha 1).2 (by decide)), if_pos ((ha 2).2 (by decide)), fun t => ?_⟩
  exact (C35_round_trip h hp (fun _ => true) (fun _ => true) _ (fun t h => if_neg h) (by rw [ht]; rfl) t).1

/-- One thread attached, the other one cannot be, and detaching the first fails. -/
example : ∃ s : St Unit, Steps ⟨true, false, false⟩ (start (fun t => t = 1 ∨ t = 2) fun _ => ()) s
    ∧ s.pc = .ret ETHRDDETTACH ∧ s.failed ≠ [] := by
  have f := Steps.refl (may := ⟨true, false, false⟩) (s := start (R := Unit) (fun t => t = 1 ∨ t = 2) fun _ => ())
  have f := f.tail (.attach _ false 1 rfl (by simp [start]) (.inl rfl) (by simp [start]))
  have f := f.tail (.attachFail _ true 2 rfl (by simp [start]))
  have f := f.tail (.detachFail _ false 1 () [] rfl rfl)
  have f := f.tail (.unwound _ true rfl rfl)
  exact ⟨_, f, rfl, ((C35_failure_partial rfl rfl f rfl (by decide)).1).1 rfl⟩

example := C35_wait_failure_leaves_attached (may := ⟨false, true, false⟩) rfl
  (start (R := Unit) (fun t => t = 1 ∨ t = 2) fun _ => ()) false 1 rfl rfl (.inl rfl) (by simp [start])
example := C35_getregs_failure_leaves_attached (may := ⟨false, false, true⟩) rfl
  (start (R := Unit) (fun t => t = 1 ∨ t = 2) fun _ => ()) false 1 rfl rfl (.inl rfl) (by simp [start])
example := C35_restore (fun t => t != 2) (fun _ => true) [(2, 20), (1, 10)] ⟨fun _ => 99, fun _ => True⟩ (by decide)

end Verif.Hijack
