import Verif.Moment.Model
import Verif.PowerTools.Model

/-!
Listing live patches while other tools are at work on a process on POWER: `ulp patches` is the same program there, and reads the
same list, as in `Verif.Moment`; the other tools are those of `Verif.PowerTools`. `tm` are the instructions of the trampoline.
-/

namespace Verif.Power.Glance

open Verif.Runtime (Applied Request)
open Verif.Moment (View Conf)

/-- Steps of the process, the tools, and the listing, which is the tool `r`.  As to attaching and detaching threads it is a tool
like the others; it attaches the main thread, then reads, then lets the thread go. -/
inductive Step (tm : List UInt8) (fuel main : Nat) (crash : Bool) (r : Nat) : Conf → Option (Nat × Request × Nat) → Conf → Prop
  /-- Something in `Verif.PowerTools`; the listing itself keeps the thread while it reads. -/
  | tools {c : Tools.Conf} {o : Option (Nat × Request × Nat)} {d : Tools.Conf} {v : View} : Crew.Step tm fuel main crash c o d →
      (∀ got, v = .reading got → d.tracer main = some r ∧ d.phase r = .scan) → Step tm fuel main crash r ⟨c, v⟩ o ⟨d, v⟩
  /-- `attach` has succeeded, tools/introspection.c:2627-2631, and the head of the list is read, :2633-2637. -/
  | begin {c : Tools.Conf} {v : View} : c.phase r = .scan → c.tracer main = some r →
      Step tm fuel main crash r ⟨c, v⟩ none ⟨c, .reading []⟩
  /-- One element is read, tools/introspection.c:2557-2580.  The pointer to it was read with the element before. -/
  | read {c : Tools.Conf} {got : List Applied} {p : Applied} : c.s.patches[got.length]? = some p →
      Step tm fuel main crash r ⟨c, .reading got⟩ none ⟨c, .reading (got ++ [p])⟩
  /-- The pointer is NULL, tools/introspection.c:2541-2542. -/
  | finish {c : Tools.Conf} {got : List Applied} : c.s.patches[got.length]? = none →
      Step tm fuel main crash r ⟨c, .reading got⟩ none ⟨c, .shown got true⟩
  /-- An element cannot be read, tools/introspection.c:2557-2561: the list ends there. -/
  | fail {c : Tools.Conf} {got : List Applied} : Step tm fuel main crash r ⟨c, .reading got⟩ none ⟨c, .shown got false⟩

/-- Any number of steps (tools/introspection.c:2614-2650), with what they show. -/
inductive Steps (tm : List UInt8) (fuel main : Nat) (crash : Bool) (r : Nat) (c : Conf) : List (Nat × Request × Nat) → Conf → Prop
  | refl : Steps tm fuel main crash r c [] c
  | tail {l : List (Nat × Request × Nat)} {d e : Conf} {o : Option (Nat × Request × Nat)} :
      Steps tm fuel main crash r c l d → Step tm fuel main crash r d o e → Steps tm fuel main crash r c (l ++ o.toList) e

end Verif.Power.Glance
