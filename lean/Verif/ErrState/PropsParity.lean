import Verif.ErrState.Props

/-! C52 in general: any number of commands at the same time. -/

namespace Verif.ErrState

open Spec

/-- How many of the tools have looked at the state and have still to toggle it. -/
def pending (l : List (Bool × Pc)) : Nat := l.countP (fun x => x.2 = .checked)

theorem pending_set {l : List (Bool × Pc)} {i : Nat} {en : Bool} (h : l[i]? = some (en, .checked)) :
    pending (l.set i (en, .done)) + 1 = pending l := by
  induction l generalizing i with
  | nil => simp at h
  | cons x l ih =>
    cases i with
    | zero =>
      simp only [List.getElem?_cons_zero, Option.some.injEq] at h
      subst h
      simp [pending]
    | succ i =>
      have := ih (by simpa using h)
      simp only [pending, List.set_cons_succ, List.countP_cons] at this ⊢
      omega

/-- C52, commands at the same time: once every tool has looked at the state, whatever each was asked for and in whatever order
they go on, the state ends as it was exactly when they are an even number, and as the opposite otherwise. -/
theorem C52_concurrent_parity (s t : Sys) (h : Steps s t) (hs : s.state = ENONE ∨ s.state = EUSRBLOCKED)
    (h0 : ∀ x ∈ s.tools, x.2 ≠ .start) (hd : ∀ x ∈ t.tools, x.2 = .done) :
    t.state = if pending s.tools % 2 = 0 then s.state else toggle s.state := by
  have key : (∀ x ∈ t.tools, x.2 ≠ .start) ∧ pending t.tools ≤ pending s.tools ∧
      t.state = if (pending s.tools - pending t.tools) % 2 = 0 then s.state else toggle s.state := by
    clear hd
    induction h with
    | refl => exact ⟨h0, Nat.le_refl _, by simp⟩
    | tail _ st ih =>
      obtain ⟨h1, h2, h3⟩ := ih
      cases st with
      | check k c hk => exact absurd rfl (h1 _ (List.mem_of_getElem? hk))
      | run k c hk =>
        have hp := pending_set hk
        refine ⟨fun x hx => ?_, by simp only; omega, ?_⟩
        · rcases List.mem_or_eq_of_mem_set hx with hx | rfl
          · exact h1 x hx
          · simp
        · simp only
          rw [h3]
          have ht : toggle (toggle s.state) = s.state := by rcases hs with h | h <;> simp [h, toggle, ENONE, EUSRBLOCKED]
          split <;> split
          · omega
          · rfl
          · exact ht
          · omega
  have hz : pending t.tools = 0 := by
    unfold pending
    rw [List.countP_eq_zero]
    intro x hx
    simp [hd x hx]
  obtain ⟨-, -, h3⟩ := key
  rw [hz] at h3
  simpa using h3

theorem Steps.trans {s t u : Sys} (h : Steps s t) (h' : Steps t u) : Steps s u := by
  induction h' with
  | refl => exact h
  | tail _ st ih => exact .tail ih st

/-- What a command for `en` finds when it has something to do. -/
def opposite (en : Bool) : Err := if en then EUSRBLOCKED else ENONE

theorem check_all (en : Bool) (l r : List (Bool × Pc)) (n : Nat) :
    Steps ⟨opposite en, l ++ (List.replicate n (en, .start) ++ r)⟩ ⟨opposite en, l ++ (List.replicate n (en, .checked) ++ r)⟩ := by
  induction n generalizing l with
  | zero => exact .refl _
  | succ n ih =>
    have h := Step.check ⟨opposite en, l ++ (List.replicate (n + 1) (en, .start) ++ r)⟩ l.length en
      (by simp [List.replicate_succ])
    have hc : (if (opposite en = ENONE ∧ en = false) ∨ (opposite en = EUSRBLOCKED ∧ en = true) then Pc.checked else .done) = .checked := by
      cases en <;> simp [opposite]
    simp only [hc] at h
    have hl : (l ++ (List.replicate (n + 1) (en, Pc.start) ++ r)).set l.length (en, .checked) =
        (l ++ [(en, .checked)]) ++ (List.replicate n (en, .start) ++ r) := by
      simp [List.replicate_succ]
    rw [hl] at h
    have := ih (l ++ [(en, .checked)])
    refine Steps.trans (.tail (.refl _) h) ?_
    simpa [List.replicate_succ] using this

theorem run_all (en : Bool) (l r : List (Bool × Pc)) (n : Nat) (e : Err) :
    ∃ e', Steps ⟨e, l ++ (List.replicate n (en, .checked) ++ r)⟩ ⟨e', l ++ (List.replicate n (en, .done) ++ r)⟩ := by
  induction n generalizing l e with
  | zero => exact ⟨_, .refl _⟩
  | succ n ih =>
    have h := Step.run ⟨e, l ++ (List.replicate (n + 1) (en, .checked) ++ r)⟩ l.length en
      (by simp [List.replicate_succ])
    have hl : (l ++ (List.replicate (n + 1) (en, Pc.checked) ++ r)).set l.length (en, .done) =
        (l ++ [(en, .done)]) ++ (List.replicate n (en, .checked) ++ r) := by
      simp [List.replicate_succ]
    simp only [hl] at h
    obtain ⟨e', h'⟩ := ih (l ++ [(en, .done)]) (toggle e)
    exact ⟨e', Steps.trans (.tail (.refl _) h) (by simpa [List.replicate_succ] using h')⟩

/-- Negation of C52 for commands at the same time, in general: any even number of users asking for the same may leave the process
as it was, the opposite of what they asked for, although every one of the commands did what it does and is told so. -/
theorem C52_concurrent_undone (en : Bool) (n : Nat) (hn : n % 2 = 0) :
    Steps ⟨opposite en, List.replicate n (en, .start)⟩ ⟨opposite en, List.replicate n (en, .done)⟩ := by
  have h1 := check_all en [] [] n
  obtain ⟨e, h2⟩ := run_all en [] [] n (opposite en)
  simp only [List.nil_append, List.append_nil] at h1 h2
  have h3 := C52_concurrent_parity _ _ h2 (by cases en <;> simp [opposite])
    (by intro x hx; simp [(List.mem_replicate.1 hx).2]) (by intro x hx; simp [(List.mem_replicate.1 hx).2])
  have hp : pending (List.replicate n (en, Pc.checked)) = n := by simp [pending, List.countP_replicate]
  simp only [hp, hn, if_pos] at h3
  subst h3
  exact h1.trans h2

/-- Four users blocking the process at once. -/
example : Steps ⟨ENONE, List.replicate 4 (false, .start)⟩ ⟨ENONE, List.replicate 4 (false, .done)⟩ :=
  C52_concurrent_undone false 4 rfl

/-- Three users who have looked at the same time: the process is blocked in the end. -/
example (t : Sys) (h : Steps ⟨ENONE, List.replicate 3 (false, .checked)⟩ t) (hd : ∀ x ∈ t.tools, x.2 = .done) :
    t.state = EUSRBLOCKED := by
  have := C52_concurrent_parity _ t h (.inl rfl) (by simp) hd
  simpa [pending, toggle] using this

end Verif.ErrState
