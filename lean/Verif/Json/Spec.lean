import Mathlib.Data.List.Forall2
import Verif.Json.Model

/-!
# What a description of a library says
-/

namespace Verif.Json

open Verif.Extract

/-- The object `o` has the value `v` under the key `k`: the last entry with this key counts. -/
def Has (o : J) (k : Str) (v : J) : Prop :=
  ∃ pre post, o = .obj (pre ++ (k, v) :: post) ∧ ∀ e ∈ post, e.1 ≠ k

/-- Nothing is to be found under the key `k` of `o`: it is no object, or has no such entry, or null. -/
def Lacks (o : J) (k : Str) : Prop := (∀ v, ¬ Has o k v) ∨ Has o k .null

/-- A C string: without NUL bytes. -/
def CStr (s : Str) : Prop := ∀ c ∈ s, c ≠ 0

/-- The object `o` describes the symbol `s`: all five entries are there, and are what `s` says. -/
structure DescribesSym (o : J) (s : Sym) : Prop where
  cstr : CStr s.name
  name : Has o kName (.str s.name)
  offset : Has o kOffset (.int s.offset.toNat)
  offsetFits : s.offset.toNat < 2 ^ 31
  size : Has o kSize (.int s.size.toNat)
  sizeFits : s.size.toNat < 2 ^ 31
  info : Has o kInfo (.int s.info.toNat)
  other : Has o kOther (.int s.other.toNat)

/-- The object `lib` has a name and a build id. -/
structure Head (lib : J) (name : Str) (id : Bytes) : Prop where
  cstr : CStr name
  name : Has lib kName (.str name)
  len : id.length = 20
  buildid : Has lib kBuildid (.str (Text.buildidToString id))

/-- The tree describes the library `i`. -/
def Describes (t : J) (i : SoInfo) : Prop :=
  ∃ lib l, Has t kLibrary lib ∧ Head lib i.name i.buildId ∧ Has lib kSymbols (.arr l) ∧
    List.Forall₂ DescribesSym l i.symbols

/-- Ends by a signal: `strdup(NULL)`, an assertion of json-c, or worse. -/
def Crashes {α : Type} : Res α → Prop
  | .abort => True
  | .ub => True
  | _ => False

end Verif.Json
