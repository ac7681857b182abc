import Verif.Listing.Model

/-!
What counts as a label in the description of a livepatch, in characters.
-/

namespace Verif.Listing.Spec

/-- '0' to '9'. -/
def digit (c : UInt8) : Bool := 48 ≤ c && c ≤ 57

/-- 'A' to 'Z' and 'a' to 'z'. -/
def letter (c : UInt8) : Bool := (65 ≤ c && c ≤ 90) || (97 ≤ c && c ≤ 122)

/-- The lower-case form of a letter. -/
def fold (c : UInt8) : UInt8 := if 65 ≤ c && c ≤ 90 then c + 32 else c

/-- "bsc#" -/
def bsc : List UInt8 := [98, 115, 99, 35]
/-- "jsc#" -/
def jsc : List UInt8 := [106, 115, 99, 35]
/-- "cve-" -/
def cve : List UInt8 := [99, 118, 101, 45]

example : bsc = "bsc#".toUTF8.toList ∧ jsc = "jsc#".toUTF8.toList ∧ cve = "cve-".toUTF8.toList := by decide +kernel
example : digit 47 = false ∧ digit 58 = false ∧ letter 64 = false ∧ letter 91 = false ∧ letter 96 = false ∧ letter 123 = false := by
  decide

/-- The text begins with `p`, in either case. -/
def begins (p : List UInt8) (l : List UInt8) : Bool := (l.take 4).map fold == p

/-- A character that may be the last of a label. -/
def canEnd (c : UInt8) : Bool := digit c || letter c || c == 35 || c == 45

/-- A character that may be the first of a label. -/
def starts (c : UInt8) : Bool := fold c == 98 || fold c == 106 || fold c == 99

/-- A label as the documentation has it: `bsc#<number>`, `jsc#<letters>-<number>`, `CVE-<number>-<number>`, in either
case. -/
inductive IsLabel : Str → Prop
  | bsc (p d : Str) : p.map fold = bsc → (∀ c ∈ d, digit c) → IsLabel (p ++ d)
  | jsc (p a d : Str) : p.map fold = jsc → (∀ c ∈ a, letter c) → (∀ c ∈ d, digit c) → IsLabel (p ++ a ++ [45] ++ d)
  | cve (p a d : Str) : p.map fold = cve → (∀ c ∈ a, digit c) → (∀ c ∈ d, digit c) → IsLabel (p ++ a ++ [45] ++ d)

/-- A text with its labels: each is followed by a character that cannot belong to a label, such as a space, a comma or a
newline. -/
inductive Text : Str → List Str → Prop
  | nil : Text [] []
  | plain (c : UInt8) (r : Str) (ls : List Str) : c ≠ 0 → begins bsc (c :: r) = false → begins jsc (c :: r) = false →
      begins cve (c :: r) = false → Text r ls → Text (c :: r) ls
  | label (l : Str) (s : UInt8) (r : Str) (ls : List Str) : IsLabel l → s ≠ 0 → canEnd s = false → Text r ls →
      Text (l ++ s :: r) (l :: ls)

end Verif.Listing.Spec
