import Verif.Dsc.Model
import Verif.Metadata.Spec

/-!
Descriptions as their documentation (README.md, man/libpulp.7) has them, how they are written down, and what
they mean.
-/

namespace Verif.Dsc.Spec

open Verif.Extract (SoInfo Sym)
open Verif.Metadata (Patch Unit' Ref)
open Verif.Metadata.Spec (All₂)

/-- A line after the one for the target. -/
inductive Entry where
  /-- `old:new` -/
  | func (old new : Str)
  /-- `#target:ref` or `#%target:ref` -/
  | ref (tls : Bool) (target ref : Str)
  /-- `#target:ref:offset:offset` or `#%target:ref:offset:offset`, in hexadecimal -/
  | refAt (tls : Bool) (target ref toff poff : Str)
  /-- `!text` -/
  | comment (text : Str)
  | blank
deriving DecidableEq, Repr

/-- A description.  Comments and blank lines may come before the container (`head`) and before the target
(`mid`); `none` is a blank line. -/
structure Desc where
  head : List (Option Str)
  container : Str
  deps : List Str
  mid : List (Option Str)
  target : Str
  entries : List Entry

/-- The text of a comment or a blank line. -/
def remark : Option Str → Str
  | none => []
  | some t => 33 :: t

/-- `#` or `#%`. -/
def mark (tls : Bool) : Str := if tls then [35, 37] else [35]

/-- The text of an entry. -/
def Entry.text : Entry → Str
  | .func old new => old ++ 58 :: new
  | .ref tls t r => mark tls ++ (t ++ 58 :: r)
  | .refAt tls t r a b => mark tls ++ (t ++ 58 :: (r ++ 58 :: (a ++ 58 :: b)))
  | .comment t => 33 :: t
  | .blank => []

/-- The lines of a description, without their newlines. -/
def Desc.texts (d : Desc) : List Str :=
  d.head.map remark ++ d.container :: (d.deps.map (42 :: ·) ++ (d.mid.map remark ++ (64 :: d.target) :: d.entries.map Entry.text))

/-- The description as a file. -/
def Desc.render (d : Desc) : Bytes := d.texts.flatMap (· ++ [10])

/-- A character of a path. -/
def PathChar (c : UInt8) : Prop := c ≠ 0 ∧ c ≠ 10

/-- A symbol name: no colon, and it is not empty. -/
def Name (s : Str) : Prop := s ≠ [] ∧ ∀ c ∈ s, PathChar c ∧ c ≠ 58

/-- A hexadecimal number without prefix. -/
def Hex (s : Str) : Prop := s ≠ [] ∧ ∀ c ∈ s, (Text.hexVal c).isSome

/-- Its value. -/
def hexValue (s : Str) : Nat := s.foldl (fun a c => a * 16 + (Text.hexVal c).getD 0) 0

/-- The symbol table has a symbol of that name at that offset. -/
def At (i : SoInfo) (n : Str) (off : Nat) : Prop := ∃ s ∈ i.symbols, s.name = n ∧ s.offset.toNat = off

/-- The symbol table has a symbol of that name. -/
def Has (i : SoInfo) (n : Str) : Prop := ∃ s ∈ i.symbols, s.name = n

/-- The entry is well formed, and the symbols it names exist. -/
def Entry.Good (t c : SoInfo) : Entry → Prop
  | .func old new => Name old ∧ Name new ∧ (∀ x ∈ old.head?, x ≠ 33 ∧ x ≠ 64 ∧ x ≠ 35) ∧ Has t old ∧ Has c new
  | .ref tls tn rn => Name tn ∧ Name rn ∧ (tls = false → tn.head? ≠ some 37) ∧ Has t tn ∧ Has c rn
  | .refAt tls tn rn a b => Name tn ∧ Name rn ∧ (tls = false → tn.head? ≠ some 37) ∧ Hex a ∧ Hex b ∧
      0 < hexValue a ∧ hexValue a < 2 ^ 63 ∧ hexValue b < 2 ^ 63
  | .comment t => 10 ∉ t
  | .blank => True

/-- The functions of a description. -/
def funcs (es : List Entry) : List (Str × Str) :=
  es.filterMap fun | .func o n => some (o, n) | _ => none

/-- The references of a description. -/
def refs (es : List Entry) : List Entry :=
  es.filter fun | .ref .. => true | .refAt .. => true | _ => false

/-- The unit is that for the pair of functions: the address is that of the function to replace. -/
def UnitFor (t : SoInfo) (u : Unit') (f : Str × Str) : Prop :=
  u.oldFname = f.1 ∧ u.newFname = f.2 ∧ At t f.1 u.oldFaddr

/-- The reference is that of the entry. -/
def RefFor (t c : SoInfo) (r : Ref) : Entry → Prop
  | .ref tls tn rn => r.tls = tls ∧ r.targetName = tn ∧ r.referenceName = rn ∧ At t tn r.targetOffset ∧ At c rn r.patchOffset
  | .refAt tls tn rn a b => r.tls = tls ∧ r.targetName = tn ∧ r.referenceName = rn ∧
      r.targetOffset = hexValue a ∧ r.patchOffset = hexValue b
  | _ => False

/-- The file is there, is not a directory, and describes a library. -/
def IsLib (e : Env) (path : Str) (i : SoInfo) : Prop := ∃ f, e.fs path = some f ∧ f.dir = false ∧ f.info = some i

/-- The file holds metadata of a patch to apply, with that id. -/
def IsMeta (e : Env) (path : Str) (id : Bytes) : Prop :=
  id.length = 32 ∧ ∃ f rest, e.fs path = some f ∧ f.bytes = 1 :: (id ++ rest)

/-- The description is well formed, and everything it names exists. -/
structure Desc.Good (d : Desc) (e : Env) (c t : SoInfo) (deps : List Bytes) : Prop where
  noLivepatch : e.livepatch = none
  noTarget : e.target = none
  head : ∀ x ∈ d.head, ∀ s ∈ x, 10 ∉ s
  mid : ∀ x ∈ d.mid, ∀ s ∈ x, 10 ∉ s
  container : d.container ≠ [] ∧ (∀ x ∈ d.container, PathChar x) ∧ d.container.head? ≠ some 33
  containerFile : IsLib e d.container c
  target : (∀ x ∈ d.target, PathChar x) ∧ d.target.length < 4096
  targetFile : IsLib e d.target t
  depPaths : ∀ s ∈ d.deps, ∀ x ∈ s, PathChar x
  depFiles : All₂ (IsMeta e) d.deps deps
  entries : ∀ x ∈ d.entries, x.Good t c

/-- The patch is the one described. -/
structure Describes (p : Patch) (d : Desc) (c t : SoInfo) (id : Bytes) (deps : List Bytes) : Prop where
  id : p.patchId = id
  buildId : p.buildId = t.buildId
  name : p.name = t.name
  units : All₂ (UnitFor t) p.units (funcs d.entries)
  deps : p.deps.reverse = deps
  refs : All₂ (RefFor t c) p.refs.reverse (refs d.entries)

/-- What is written on a line: all up to the newline (or a NUL). -/
def textOf (l : Str) : Str := l.takeWhile fun c => c != 10 && c != 0

/-- A blank line or a comment. -/
def IsRemark (l : Str) : Prop := l.head? = some 10 ∨ l.head? = some 33

/-- The container of a description with these lines: the file named by the first line that is no remark, unless
another one is given with `--livepatch`. -/
def Container (e : Env) (ls : List Str) (c : SoInfo) : Prop :=
  ∃ pre l post, ls = pre ++ l :: post ∧ (∀ x ∈ pre, IsRemark x) ∧ ¬ IsRemark l ∧ IsLib e (e.livepatch.getD (textOf l)) c

/-- The target of a description with these lines: the file named by a line with `@`, unless another one is given
with `--target`. -/
def Target (e : Env) (ls : List Str) (t : SoInfo) : Prop :=
  ∃ l ∈ ls, l.head? = some 64 ∧ IsLib e (e.target.getD ((textOf l).drop 1)) t

/-- A line says that `old` is replaced by `new`.  More colons and anything after another colon are let pass. -/
def SaysFunc (l old new : Str) : Prop :=
  ∃ k rest, textOf l = old ++ List.replicate (k + 1) 58 ++ new ++ rest ∧ 58 ∉ old ∧ 58 ∉ new ∧ old ≠ [] ∧ new ≠ [] ∧
    (rest = [] ∨ rest.head? = some 58)

/-- A line says that `ref` is a reference to `target`; the offsets are in `rest`, if they are given. -/
def SaysRef (l : Str) (tls : Bool) (target ref rest : Str) : Prop :=
  textOf l = mark tls ++ target ++ 58 :: (ref ++ rest) ∧ 58 ∉ target ∧ 58 ∉ ref ∧ (rest = [] ∨ rest.head? = some 58)

/-- The description's text up to its dependencies. -/
def Desc.preamble (d : Desc) : Bytes := (d.head.map remark ++ d.container :: d.deps.map (42 :: ·)).flatMap (· ++ [10])

end Verif.Dsc.Spec
