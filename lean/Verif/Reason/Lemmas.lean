import Verif.Reason.Model
import Verif.Reason.Spec
import Verif.MsgQueue.Props

namespace Verif.Reason

open Verif.MsgQueue Verif.MsgQueue.Spec Spec

theorem at_unique {mem : Nat → UInt8} {a : Nat} {s t : Str} (h1 : At mem a s) (h2 : At mem a t) : s = t := by
  have hl : ∀ {s t : Str}, At mem a s → At mem a t → ¬ s.length < t.length := by
    intro s t h1 h2 hlt
    have := (h2.1 s.length hlt)
    rw [h1.2] at this
    exact this.2 this.1.symm
  have he : s.length = t.length := by
    have := hl h1 h2; have := hl h2 h1; omega
  apply List.ext_getElem he
  intro i hi hj
  rw [← (h1.1 i hi).1, ← (h2.1 i hj).1]

theorem prints_unique {mem : Nat → UInt8} {ps : List Piece} {w : Nat → Nat} {s t : Str} (h1 : Prints mem ps w s)
    (h2 : Prints mem ps w t) : s = t := by
  induction h1 generalizing t with
  | nil => cases h2; rfl
  | byte _ ih => cases h2 with | byte h => rw [ih h]
  | str a _ ih => cases h2 with | str b h => rw [ih h, at_unique a b]
  | dec _ ih => cases h2 with | dec h => rw [ih h]

theorem pieces_byte {c : UInt8} (h : c ≠ 37) (s : Str) : pieces (c :: s) = (pieces s).map (.byte c :: ·) := by
  rw [pieces.eq_def]; simp [h]

theorem pieces_plain : ∀ {s : Str}, Plain s → pieces s = some (s.map .byte)
  | [], _ => by simp [pieces]
  | c :: s, h => by
    have h1 : c ≠ 37 := fun e => h (by simp [e])
    have h2 : Plain s := fun e => h (by simp [e])
    rw [pieces_byte h1, pieces_plain h2]; simp

theorem pieces_append : ∀ {s t : Str}, Plain s → pieces (s ++ t) = (pieces t).map (s.map .byte ++ ·)
  | [], t, _ => by simp
  | c :: s, t, h => by
    have h1 : c ≠ 37 := fun e => h (by simp [e])
    have h2 : Plain s := fun e => h (by simp [e])
    rw [List.cons_append, pieces_byte h1, pieces_append h2]; simp [Function.comp_def]

theorem prints_bytes {mem : Nat → UInt8} (s : Str) {ps : List Piece} {w : Nat → Nat} {out : Str} (h : Prints mem ps w out) :
    Prints mem (s.map .byte ++ ps) w (s ++ out) := by
  induction s with
  | nil => exact h
  | cons c s ih => exact Prints.byte ih

theorem prints_plain (mem : Nat → UInt8) (s : Str) (w : Nat → Nat) : Prints mem (s.map .byte) w s := by
  simpa using prints_bytes s (ps := []) (out := []) (w := w) (mem := mem) Prints.nil

theorem pieces_one {pre post : Str} (h1 : Plain pre) (h2 : Plain post) :
    pieces (oneString pre post) = some (pre.map .byte ++ .str :: post.map .byte) := by
  rw [oneString, List.append_assoc, pieces_append h1]
  simp [pieces, pieces_plain h2]

theorem prints_one (mem : Nat → UInt8) (pre post : Str) {w : Nat → Nat} {s : Str} (h : At mem (w 0) s) :
    Prints mem (pre.map .byte ++ .str :: post.map .byte) w (pre ++ s ++ post) := by
  rw [List.append_assoc]
  exact prints_bytes pre (Prints.str h (prints_plain mem post _))

/-- On x86-64, a `va_list` reads as the string of one opening parenthesis. -/
theorem at_va {c : Ctx} (h : Started .x86_64 c) : At c.mem c.va [40] := by
  obtain ⟨h0, h1, _⟩ := h
  refine ⟨?_, by simpa using h1⟩
  intro i hi
  have : i = 0 := by simp at hi; omega
  subst this
  simp [h0]

/-- The bytes of a word. -/
def bytesOf (v n : Nat) : Str := (List.range n).map fun j => UInt8.ofNat (v / 2 ^ (8 * j))

theorem pushAll_append {N fuel : Nat} (ms ns : List (List UInt8)) (q q1 : MsgQ) (h : pushAll N fuel q ms = .ok q1) :
    pushAll N fuel q (ms ++ ns) = pushAll N fuel q1 ns := by
  induction ms generalizing q with
  | nil => simp only [pushAll, Outcome.ok.injEq] at h; simp [h]
  | cons m ms ih =>
    simp only [pushAll, List.cons_append] at h ⊢
    cases hp : push N fuel q m with
    | ok q2 => simp only [hp] at h ⊢; exact ih _ h
    | outOfBounds => simp [hp] at h
    | running => simp [hp] at h

end Verif.Reason
