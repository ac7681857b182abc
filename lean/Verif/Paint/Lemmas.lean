import Verif.Paint.Model
import Verif.Paint.Spec

namespace Verif.Paint

open Verif.Report (Result minor scan condense firstErr)

/-- No text among the pieces has an escape character. -/
def Clean (ps : List Piece) : Prop := ∀ s, Piece.text s ∈ ps → (27 : UInt8) ∉ s

/-- The style an escape sequence selects. -/
def Sgr.style : Sgr → Style
  | .red => .inRed
  | .green => .inGreen
  | .yellow => .inYellow
  | .bold => .inBold
  | .reset => .normal

theorem show_text (st : Style) (s r : Str) (h : (27 : UInt8) ∉ s) :
    show' .text st (s ++ r) = (s.map (·, st) ++ (show' .text st r).1, (show' .text st r).2) := by
  induction s with
  | nil => simp
  | cons c s ih =>
    have hc : c ≠ 27 := fun e => h (by simp [e])
    simp only [List.cons_append, show', if_neg hc, ih (fun e => h (List.mem_cons_of_mem _ e)), List.map_cons]

theorem red_bytes : Sgr.red.bytes = [27, 91, 51, 49, 59, 49, 109] := by decide +kernel
theorem green_bytes : Sgr.green.bytes = [27, 91, 51, 50, 59, 49, 109] := by decide +kernel
theorem yellow_bytes : Sgr.yellow.bytes = [27, 91, 51, 51, 59, 49, 109] := by decide +kernel
theorem bold_bytes : Sgr.bold.bytes = [27, 91, 59, 49, 109] := by decide +kernel
theorem reset_bytes : Sgr.reset.bytes = [27, 91, 48, 109] := by decide +kernel

theorem show_sgr (st : Style) (c : Sgr) (r : Str) : show' .text st (c.bytes ++ r) = show' .text c.style r := by
  cases c <;>
    simp [red_bytes, green_bytes, yellow_bytes, bold_bytes, reset_bytes, show', Style.set, Sgr.style, Style.normal, Style.inRed, Style.inGreen, Style.inYellow, Style.inBold]

/-- The characters of a sequence of pieces with their styles, and the style at the end. -/
def walk (st : Style) : List Piece → List (UInt8 × Style) × Style
  | [] => ([], st)
  | .text s :: ps => (s.map (·, st) ++ (walk st ps).1, (walk st ps).2)
  | .sgr c :: ps => walk c.style ps

theorem show_render (st : Style) (ps : List Piece) (h : Clean ps) :
    show' .text st (render false ps) = ((walk st ps).1, .text, (walk st ps).2) := by
  induction ps generalizing st with
  | nil => rfl
  | cons p ps ih =>
    have h' : Clean ps := fun s hs => h s (List.mem_cons_of_mem _ hs)
    cases p with
    | text s =>
      simp only [render, List.flatMap_cons, Piece.bytes]
      rw [show_text _ _ _ (h s List.mem_cons_self)]
      have := ih st h'
      simp only [render] at this
      rw [this, walk]
    | sgr c =>
      simp only [render, List.flatMap_cons, Piece.bytes, Bool.false_eq_true, if_false]
      rw [show_sgr]
      have := ih c.style h'
      simp only [render] at this
      rw [this, walk]

theorem walk_fst (st : Style) (ps : List Piece) : (walk st ps).1.map Prod.fst = render true ps := by
  induction ps generalizing st with
  | nil => rfl
  | cons p ps ih =>
    cases p with
    | text s =>
      simp only [walk, List.map_append, ih st, render, List.flatMap_cons, Piece.bytes, List.map_map]
      congr 1
      induction s with
      | nil => rfl
      | cons c s ihs => simp_all
    | sgr c => simp only [walk, ih c.style, render, List.flatMap_cons, Piece.bytes, if_true, List.nil_append]

theorem walk_append (st : Style) (a b : List Piece) :
    walk st (a ++ b) = ((walk st a).1 ++ (walk (walk st a).2 b).1, (walk (walk st a).2 b).2) := by
  induction a generalizing st with
  | nil => simp [walk]
  | cons p ps ih =>
    cases p <;> simp [walk, ih]

theorem clean_render (ps : List Piece) (h : Clean ps) : (27 : UInt8) ∉ render true ps := by
  intro hm
  obtain ⟨p, hp, hb⟩ := List.mem_flatMap.1 hm
  cases p with
  | text s => exact h s hp hb
  | sgr c => simp [Piece.bytes] at hb

theorem clean_append {a b : List Piece} (ha : Clean a) (hb : Clean b) : Clean (a ++ b) := by
  intro s hs
  rcases List.mem_append.1 hs with h | h
  · exact ha s h
  · exact hb s h

theorem clean_flatMap {α : Type} {f : α → List Piece} {l : List α} (h : ∀ x ∈ l, Clean (f x)) : Clean (l.flatMap f) := by
  intro s hs
  obtain ⟨x, hx, hs⟩ := List.mem_flatMap.1 hs
  exact h x hx s hs

/-- Pieces that leave the style as normal as it was. -/
def Closed (ps : List Piece) : Prop := (walk .normal ps).2 = .normal

theorem closed_append {a b : List Piece} (ha : Closed a) (hb : Closed b) : Closed (a ++ b) := by
  unfold Closed at *
  rw [walk_append, ha]
  exact hb

theorem closed_flatMap {α : Type} {f : α → List Piece} {l : List α} (h : ∀ x ∈ l, Closed (f x)) : Closed (l.flatMap f) := by
  induction l with
  | nil => rfl
  | cons a l ih =>
    rw [List.flatMap_cons]
    exact closed_append (h a List.mem_cons_self) (ih fun x hx => h x (List.mem_cons_of_mem _ hx))

/-- The characters of closed pieces that stand out. -/
def outs (ps : List Piece) : List (UInt8 × Style) := (walk .normal ps).1.filter standsOut

theorem outs_append {a b : List Piece} (ha : Closed a) : outs (a ++ b) = outs a ++ outs b := by
  unfold outs Closed at *
  rw [walk_append, ha, List.filter_append]

theorem outs_flatMap {α : Type} {f : α → List Piece} {l : List α} (h : ∀ x ∈ l, Closed (f x)) :
    outs (l.flatMap f) = l.flatMap fun x => outs (f x) := by
  induction l with
  | nil => rfl
  | cons a l ih =>
    rw [List.flatMap_cons, List.flatMap_cons, outs_append (h a List.mem_cons_self), ih fun x hx => h x (List.mem_cons_of_mem _ hx)]

theorem plain_out (s : Str) : (s.map (·, Style.normal)).filter standsOut = [] := by
  rw [List.filter_eq_nil_iff]
  intro p hp
  obtain ⟨c, -, rfl⟩ := List.mem_map.1 hp
  simp [standsOut]

theorem outs_text (s : Str) (ps : List Piece) : outs (.text s :: ps) = outs ps := by
  unfold outs
  rw [walk, List.filter_append, plain_out, List.nil_append]

theorem standout_render (ps : List Piece) (h : Clean ps) : standout (render false ps) = outs ps := by
  unfold standout shown outs
  rw [show_render _ _ h]

theorem leftNormal_render (ps : List Piece) (h : Clean ps) (hc : Closed ps) : LeftNormal (render false ps) := by
  unfold LeftNormal
  rw [show_render _ _ h, hc]

theorem characters_render (ps : List Piece) (h : Clean ps) : characters (render false ps) = render true ps := by
  unfold characters shown
  rw [show_render _ _ h, walk_fst]

theorem characters_plain (s : Str) (h : (27 : UInt8) ∉ s) : shown s = s.map (·, .normal) ∧ LeftNormal s := by
  have := show_text .normal s [] h
  simp only [List.append_nil, show'] at this
  exact ⟨by rw [shown, this], by rw [LeftNormal, this]⟩

theorem printDec_clean (n : Nat) : (27 : UInt8) ∉ Text.printDec n := by
  induction n using Nat.strongRecOn with
  | _ n ih =>
    unfold Text.printDec
    have hd : ∀ k : Nat, k < 10 → (27 : UInt8) ≠ UInt8.ofNat (48 + k) := by
      intro k hk
      have : k = 0 ∨ k = 1 ∨ k = 2 ∨ k = 3 ∨ k = 4 ∨ k = 5 ∨ k = 6 ∨ k = 7 ∨ k = 8 ∨ k = 9 := by omega
      rcases this with h | h | h | h | h | h | h | h | h | h <;> subst h <;> decide
    by_cases h : n < 10
    · rw [if_pos h]
      simpa using hd n h
    · rw [if_neg h]
      intro hm
      rcases List.mem_append.1 hm with hm | hm
      · exact ih (n / 10) (by omega) hm
      · exact hd (n % 10) (by omega) (by simpa using hm)

theorem not_mem_app {a b : Str} (ha : (27 : UInt8) ∉ a) (hb : (27 : UInt8) ∉ b) : (27 : UInt8) ∉ a ++ b := by
  simp [ha, hb]

theorem clean_nil : Clean [] := by intro s hs; simp at hs

theorem clean_text {s : Str} {ps : List Piece} (h : (27 : UInt8) ∉ s) (hp : Clean ps) : Clean (.text s :: ps) := by
  intro t ht
  rcases List.mem_cons.1 ht with e | ht
  · cases e; exact h
  · exact hp t ht

theorem clean_sgr {c : Sgr} {ps : List Piece} (hp : Clean ps) : Clean (.sgr c :: ps) := by
  intro t ht
  rcases List.mem_cons.1 ht with e | ht
  · cases e
  · exact hp t ht

/-- Closes goals about texts without escape characters. -/
macro "clean" : tactic => `(tactic| (repeat' first
  | apply not_mem_app | assumption | apply printDec_clean | decide +kernel | exact clean_nil | apply clean_sgr | apply clean_text | apply clean_append))

end Verif.Paint
