import Verif.Text.Model

/-!
# What a message says
-/

namespace Verif.Reason.Spec

/-- A text without conversions means itself. -/
def Plain (s : Str) : Prop := (37 : UInt8) ∉ s

/-- A text with one `%s` in it. -/
def oneString (pre post : Str) : Str := pre ++ [37, 115] ++ post

/-- A number as an `int`. -/
def number (v : Int) : Str := if v < 0 then 45 :: Text.printDec v.natAbs else Text.printDec v.natAbs

/-- The word that holds an `int`. -/
def Holds (w : Nat) (v : Int) : Prop := -2 ^ 31 ≤ v ∧ v < 2 ^ 31 ∧ (w : Int) % 2 ^ 32 = v % 2 ^ 32

/-- Where an error was found: the file, the function, the line, and a code. -/
structure Where where
  file : Str
  func : Str
  line : Int
  code : Int

/-- The message that says where `libpulp_errx` was called. -/
def errxText (p : Where) : Str :=
  "In file = ".toUTF8.toList ++ (p.file ++ (", function = ".toUTF8.toList ++ (p.func ++ (", line = ".toUTF8.toList ++
    (number p.line ++ (": errx : ".toUTF8.toList ++ (number p.code ++ " ;; ".toUTF8.toList)))))))

/-- The message that says where libpulp was put into an error state. -/
def reasonText (p : Where) : Str :=
  "In file = ".toUTF8.toList ++ (p.file ++ (", function = ".toUTF8.toList ++ (p.func ++ (", line = ".toUTF8.toList ++
    (number p.line ++ (", error state ".toUTF8.toList ++ (number p.code ++ ": ".toUTF8.toList)))))))

end Verif.Reason.Spec
