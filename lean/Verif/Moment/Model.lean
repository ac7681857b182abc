import Verif.Tools.Model

/-!
# Listing live patches while other tools are at work

`ulp patches` reads the list of applied live patches from a process (`ulp_read_state`, tools/introspection.c:2614-2650), one
element after the other (`read_ulp_applied_patch`, :2536-2583), while other tools may be at work on the same process
(`Verif.Tools`).  It stops the main thread for this and no other.

What is read apart from that, before it (the libraries), without stopping anything (the status) and after it (whether
libraries are livepatchable), is left out, as are the names in the elements.
-/

namespace Verif.Moment

open Verif.Runtime (Applied Request)

/-- What the listing has read: nothing yet, the first elements, or all that it shows; `ok` unless a read failed. -/
inductive View where
  | idle
  | reading (got : List Applied)
  | shown (got : List Applied) (ok : Bool)

/-- The process and the tools, one of which is the listing. -/
structure Conf where
  t : Tools.Conf
  v : View

/-- Steps of the process, the tools, and the listing, which is the tool `r`.  As to attaching and detaching threads it is a tool
like the others; it attaches the main thread, then reads, then lets the thread go. -/
inductive Step (fuel main : Nat) (crash : Bool) (r : Nat) : Conf → Option (Nat × Request × Nat) → Conf → Prop
  /-- Something in `Verif.Tools`; the listing itself keeps the thread while it reads. -/
  | tools {c : Tools.Conf} {o : Option (Nat × Request × Nat)} {d : Tools.Conf} {v : View} : Tools.Step fuel main crash c o d →
      (∀ got, v = .reading got → d.tracer main = some r ∧ d.phase r = .scan) → Step fuel main crash r ⟨c, v⟩ o ⟨d, v⟩
  /-- `attach` has succeeded, tools/introspection.c:2627-2631, and the head of the list is read, :2633-2637. -/
  | begin {c : Tools.Conf} {v : View} : c.phase r = .scan → c.tracer main = some r →
      Step fuel main crash r ⟨c, v⟩ none ⟨c, .reading []⟩
  /-- One element is read, tools/introspection.c:2557-2580.  The pointer to it was read with the element before. -/
  | read {c : Tools.Conf} {got : List Applied} {p : Applied} : c.s.patches[got.length]? = some p →
      Step fuel main crash r ⟨c, .reading got⟩ none ⟨c, .reading (got ++ [p])⟩
  /-- The pointer is NULL, tools/introspection.c:2541-2542. -/
  | finish {c : Tools.Conf} {got : List Applied} : c.s.patches[got.length]? = none →
      Step fuel main crash r ⟨c, .reading got⟩ none ⟨c, .shown got true⟩
  /-- An element cannot be read, tools/introspection.c:2557-2561: the list ends there. -/
  | fail {c : Tools.Conf} {got : List Applied} : Step fuel main crash r ⟨c, .reading got⟩ none ⟨c, .shown got false⟩

/-- Any number of steps, with what they show. -/
inductive Steps (fuel main : Nat) (crash : Bool) (r : Nat) (c : Conf) : List (Nat × Request × Nat) → Conf → Prop
  | refl : Steps fuel main crash r c [] c
  | tail {l : List (Nat × Request × Nat)} {d e : Conf} {o : Option (Nat × Request × Nat)} :
      Steps fuel main crash r c l d → Step fuel main crash r d o e → Steps fuel main crash r c (l ++ o.toList) e

end Verif.Moment
