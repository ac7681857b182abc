import Verif.Diag.Model

/-!
What a message about a description should look like.
-/

namespace Verif.Diag.Spec

open Verif.Diag
open Verif.Dsc

/-- What is read on a terminal. -/
def text : List Out → Str
  | [] => []
  | .char c :: o => c :: text o
  | _ :: o => text o

/-- The pieces printed in red. -/
def redPieces : Option Str → List Out → List Str
  | none, [] => []
  | some p, [] => [p]
  | none, .red :: o => redPieces (some []) o
  | some p, .red :: o => redPieces (some p) o
  | none, _ :: o => redPieces none o
  | some p, .char c :: o => redPieces (some (p ++ [c])) o
  | some p, _ :: o => p :: redPieces none o

/-- A line without its newline. -/
def bare (l : Str) : Str := if l.getLast? = some 10 then l.dropLast else l

/-- The line `l` has the word `w` at column `col`: it ends at a colon or with the line. -/
def WordAt (l : Str) (col : Nat) (w : Str) : Prop :=
  ∃ a b, bare l = a ++ w ++ b ∧ a.length + 1 = col ∧ (b = [] ∨ b.head? = some 58) ∧ 58 ∉ w

/-- The marked part of a line: a colon, or what there is from that column up to a colon or the end of the line. -/
def Marked (l : Str) (col : Nat) (w : Str) : Prop :=
  ∃ a b, bare l = a ++ w ++ b ∧ a.length + 1 = col ∧ (w = [58] ∨ (58 ∉ w ∧ (b = [] ∨ (b.head? = some 58 ∧ w ≠ []))))

/-- The file at that path does not have the symbol. -/
def Lacks (e : Env) (path x : Str) : Prop := ∃ f i, e.fs path = some f ∧ f.info = some i ∧ ∀ s ∈ i.symbols, s.name ≠ x

/-- The message: where, what, the line, and the mark below the `len` characters from column `col`. -/
def message (file : Str) (line col : Nat) (what l : Str) (len : Nat) : Str :=
  file ++ lit ":" ++ Text.printDec line ++ lit ":" ++ Text.printDec col ++ lit ": error: " ++ what ++ [10] ++
    bare l ++ [10] ++ List.replicate (col - 1) 32 ++ [94] ++ List.replicate (len - 1) 126 ++ [10]

/-- The message without the places. -/
def forget {α : Type} : Res α → Dsc.Res α
  | .ok a => .ok a
  | .err _ _ .crash => .null
  | .err _ _ _ => .err
  | .ub => .ub

/-- The lines with line `k` (from 1) emptied. -/
def blank (ls : List Str) (k : Nat) : List Str := ls.set (k - 1) [10]

end Verif.Diag.Spec
