import Verif.Json.Spec
import Verif.Extract.Props
import Verif.Text.Props

/-!
# Lemmas about trees
-/

namespace Verif.Json

open Verif.Extract

theorem lookup_last (l : List (Str × J)) (k : Str) (v : J) (pre post : List (Str × J)) (h : l = pre ++ (k, v) :: post)
    (hp : ∀ e ∈ post, e.1 ≠ k) : l.reverse.lookup k = some v := by
  subst h
  simp only [List.reverse_append, List.reverse_cons, List.append_assoc, List.singleton_append]
  have : ∀ e ∈ post.reverse, e.1 ≠ k := fun e he => hp e (by simpa using he)
  generalize post.reverse = q at this
  induction q with
  | nil => simp
  | cons e q ih =>
    obtain ⟨a, b⟩ := e
    have h1 : a ≠ k := this (a, b) (by simp)
    have h2 : (k == a) = false := by simp; exact fun e => h1 e.symm
    simp only [List.cons_append, List.lookup_cons, h2]
    exact ih fun e he => this e (by simp [he])

theorem get_of_has {o : J} {k : Str} {v : J} (h : Has o k v) : get o k = v := by
  obtain ⟨pre, post, rfl, hp⟩ := h
  simp only [get]
  rw [lookup_last _ k v pre post rfl hp]
  rfl

theorem lookup_some (q : List (Str × J)) (k : Str) (v : J) (h : q.lookup k = some v) :
    ∃ a b, q = a ++ (k, v) :: b ∧ ∀ e ∈ a, e.1 ≠ k := by
  induction q with
  | nil => simp at h
  | cons e q ih =>
    obtain ⟨x, y⟩ := e
    rw [List.lookup_cons] at h
    by_cases hx : k = x
    · subst hx
      simp only [beq_self_eq_true, Option.some.injEq] at h
      subst h
      exact ⟨[], q, rfl, by simp⟩
    · have : (k == x) = false := by simpa using hx
      simp only [this] at h
      obtain ⟨a, b, rfl, hab⟩ := ih h
      refine ⟨(x, y) :: a, b, rfl, ?_⟩
      intro e he
      rcases List.mem_cons.1 he with rfl | he
      · exact fun e => hx e.symm
      · exact hab e he

theorem has_of_get {o : J} {k : Str} (h : get o k ≠ .null) : Has o k (get o k) := by
  cases o with
  | obj l =>
    simp only [get] at h ⊢
    cases hl : l.reverse.lookup k with
    | none => simp [hl] at h
    | some v =>
      obtain ⟨a, b, e, hab⟩ := lookup_some _ _ _ hl
      refine ⟨b.reverse, a.reverse, ?_, fun x hx => hab x (by simpa using hx)⟩
      have : l = (a ++ (k, v) :: b).reverse := by rw [← e, List.reverse_reverse]
      rw [this]
      simp
  | null => simp [get] at h
  | bool => simp [get] at h
  | int => simp [get] at h
  | double => simp [get] at h
  | str => simp [get] at h
  | arr => simp [get] at h

theorem get_of_lacks {o : J} {k : Str} (h : Lacks o k) : get o k = .null := by
  rcases h with h | h
  · exact Decidable.byContradiction (dec := Classical.propDecidable _) fun hn => h _ (has_of_get hn)
  · exact get_of_has h

theorem takeWhile_cstr {s : Str} (h : CStr s) : s.takeWhile (· != 0) = s := by
  induction s with
  | nil => rfl
  | cons a s ih =>
    have ha : a ≠ 0 := h a (by simp)
    simp only [List.takeWhile_cons, bne_iff_ne, ne_eq, ha, not_false_eq_true, ↓reduceIte]
    rw [ih fun c hc => h c (by simp [hc])]

end Verif.Json
