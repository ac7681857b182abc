import Verif.Base.Str
import Verif.Report.Model

/-!
A terminal: how it shows text with escape sequences that select colours (ECMA-48, SGR).  Other sequences of the form ESC [ ... are
ignored.
-/

namespace Verif.Paint

/-- How a character is shown. -/
structure Style where
  bold : Bool
  /-- 1 red, 2 green, 3 yellow, ... -/
  color : Option Nat
deriving DecidableEq, Repr

def Style.normal : Style := ⟨false, none⟩
def Style.inRed : Style := ⟨true, some 1⟩
def Style.inGreen : Style := ⟨true, some 2⟩
def Style.inYellow : Style := ⟨true, some 3⟩
def Style.inBold : Style := ⟨true, none⟩

/-- One number of a sequence. -/
def Style.set (st : Style) (n : Nat) : Style :=
  if n = 0 then .normal
  else if n = 1 then { st with bold := true }
  else if 30 ≤ n ∧ n ≤ 37 then { st with color := some (n - 30) }
  else st

/-- Within an escape sequence or not. -/
inductive Mode where
  | text
  | esc
  /-- Behind ESC [: the numbers so far, and the one being read. -/
  | csi (done : List Nat) (cur : Nat)
deriving DecidableEq, Repr

/-- What a terminal shows, from a mode and a style on, and how it is left. -/
def show' : Mode → Style → Str → List (UInt8 × Style) × Mode × Style
  | m, st, [] => ([], m, st)
  | .text, st, c :: cs =>
    if c = 27 then show' .esc st cs
    else ((c, st) :: (show' .text st cs).1, (show' .text st cs).2)
  | .esc, st, c :: cs => if c = 91 then show' (.csi [] 0) st cs else show' .text st cs
  | .csi d n, st, c :: cs =>
    if 48 ≤ c ∧ c ≤ 57 then show' (.csi d (10 * n + (c.toNat - 48))) st cs
    else if c = 59 then show' (.csi (d ++ [n]) 0) st cs
    else if c = 109 then show' .text ((d ++ [n]).foldl Style.set st) cs
    else show' .text st cs

/-- What a terminal in its initial state shows. -/
def shown (s : Str) : List (UInt8 × Style) := (show' .text .normal s).1

/-- The characters, without colours. -/
def characters (s : Str) : Str := (shown s).map Prod.fst

/-- The characters that stand out; blanks and line ends do not. -/
def standsOut (p : UInt8 × Style) : Bool := p.2 ≠ .normal ∧ p.1 ≠ 32 ∧ p.1 ≠ 10
def standout (s : Str) : List (UInt8 × Style) := (shown s).filter standsOut

/-- The terminal is left as it was found. -/
def LeftNormal (s : Str) : Prop := (show' .text .normal s).2 = (.text, .normal)

/-- A text in a style. -/
def inStyle (st : Style) (s : String) : List (UInt8 × Style) := s.toUTF8.toList.map (·, st)

/-- The word that a line of the report is to stand out with. -/
def word : Report.Out → List (UInt8 × Style)
  | .header => []
  | .skippedAll _ => inStyle .inYellow "SKIPPED"
  | .skipped _ _ => inStyle .inYellow "SKIPPED"
  | .failed _ _ => inStyle .inRed "FAILED"
  | .failedNameless => inStyle .inRed "FAILED"
  | .success _ => inStyle .inGreen "SUCCESS"
  | .successNameless => inStyle .inGreen "SUCCESS"

end Verif.Paint

namespace Verif.Paint

/-- A line of a text, without its end. -/
def IsLine (l s : Str) : Prop := ∃ a b, s = a ++ l ++ 10 :: b ∧ (10 : UInt8) ∉ l ∧ (a = [] ∨ a.getLast? = some 10)

end Verif.Paint
