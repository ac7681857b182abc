import Verif.Status.Model
import Verif.Inspect.Spec
import Verif.Text.Model

/-!
What libpulp keeps in the memory of a process about applied live patches (include/ulp_common.h:69-76, 190-211), and functions that can be live
patched.
-/

namespace Verif.Status.Spec

open Verif.Inspect.Spec (Readable Num HasStr)
open Verif.Inspect (Proc Bytes)

/-- An applied live patch: id, base name of its target library, path of its container, and when it was applied. -/
structure Patch where
  id : Bytes
  lib : Str
  container : Str
  time : Nat
deriving DecidableEq, Repr

/-- The list of applied live patches from an address on, as libpulp of that version keeps it: time stamps since 0.3.1. -/
inductive Patches (p : Proc) (version : Nat) : Nat → List Patch → Prop
  | nil : Patches p version 0 []
  | cons {a x next xs lib container} : a ≠ 0 → Readable p a (if Text.triplet 0 3 1 ≤ version then 80 else 72) → p.mem.load a 32 = x.id →
      lib ≠ 0 → Num p (a + 32) 8 lib → HasStr p lib x.lib → container ≠ 0 → Num p (a + 40) 8 container → HasStr p container x.container →
      Num p (a + 56) 8 next → (Text.triplet 0 3 1 ≤ version → Num p (a + 72) 8 x.time) → Patches p version next xs → Patches p version a (x :: xs)

/-- `__ulp_state` has that list. -/
def State (p : Proc) (l : Libpulp) (ps : List Patch) : Prop :=
  l.state ≠ 0 ∧ Readable p l.state 16 ∧ ∃ a, Num p (l.state + 8) 8 a ∧ Patches p l.version a ps

/-- The part of a path after the last slash. -/
def IsBase (path base : Str) : Prop := 47 ∉ base ∧ (path = base ∨ ∃ dir, path = dir ++ 47 :: base)

/-- The symbols of an object: values, as in its dynamic symbol table. -/
def Symbols (p : Proc) (o : Object) (values : List Nat) : Prop :=
  o.count = values.length ∧ o.dynsym + 24 * values.length < 2 ^ 64 ∧ Readable p o.dynsym (24 * values.length) ∧
    ∀ i v, values[i]? = some v → Num p (o.dynsym + 24 * i + 8) 8 v ∧ o.ehdr + v < 2 ^ 64

/-- There are these bytes at `a`. -/
def Code (p : Proc) (a : Nat) (bytes : Bytes) : Prop := Readable p a bytes.length ∧ p.mem.load a bytes.length = bytes

/-- There is a function at `a` that can be live patched: it starts with two bytes of no operation, as one instruction or two (x86-64); with a no operation as its first
instruction, or after the two instructions that set up the table of contents (POWER). -/
def Pad (p : Proc) (a : Nat) : Arch → Prop
  | .x86_64 => Code p a [0x66, 0x90] ∨ Code p a [0x90, 0x90]
  | .ppc64le => ∃ x y : Bytes, x.length = 4 ∧ y.length = 4 ∧ (Code p a ([0, 0, 0, 0x60] ++ x ++ y) ∨ Code p a (x ++ y ++ [0, 0, 0, 0x60]))

/-- A live patch is applied to an object of that base name. -/
def Patched (ps : List Patch) (o : Object) : Prop := ∃ x ∈ ps, IsBase o.filename x.lib

/-- An object has a function that can be live patched. -/
def HasPad (arch : Arch) (p : Proc) (o : Object) (values : List Nat) : Prop := ∃ v ∈ values, Pad p (o.ehdr + v) arch

/-- The time shown with a live patch. -/
def shownTime (version time : Nat) : Option Nat := if Text.triplet 0 3 1 ≤ version ∧ time ≠ 0 then some time else none

open Classical in
/-- What is to be printed about an object: a line about itself, and one about each live patch applied to it, in the order of the list. -/
noncomputable def about (version : Nat) (buildid : Bool) (ps : List Patch) (o : Object) : List Line :=
  .library o.filename (if buildid then some o.buildId else none) (if o.version ≠ 0 then some o.version else none) ::
    (ps.filter fun x => IsBase o.filename x.lib).map fun x => .patch (getBasename x.container) (shownTime version x.time)

end Verif.Status.Spec
