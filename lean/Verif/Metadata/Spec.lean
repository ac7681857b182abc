import Verif.Metadata.Model

/-!
What a parsed patch means, and which patches the packer may be given.
-/

namespace Verif.Metadata.Spec

open Verif.Metadata

/-- The C string a buffer holds, if there is a terminator in it. -/
def cstring : Bytes → Option Str
  | [] => none
  | 0 :: _ => some []
  | c :: cs => (cstring cs).map (c :: ·)

/-- A parsed unit is the given one. -/
def UnitIs (u : PUnit) (v : Unit') : Prop :=
  cstring u.oldFname = some v.oldFname ∧ cstring u.newFname = some v.newFname ∧ u.oldFaddr = v.oldFaddr

/-- A parsed reference is the given one. -/
def RefIs (u : PRef) (v : Ref) : Prop :=
  cstring u.targetName = some v.targetName ∧ cstring u.referenceName = some v.referenceName ∧
  u.targetOffset = v.targetOffset ∧ u.patchOffset = v.patchOffset ∧ u.tls = (if v.tls then 1 else 0)

/-- Two lists agree element by element. -/
def All₂ {α β} (R : α → β → Prop) (l : List α) (k : List β) : Prop :=
  l.length = k.length ∧ ∀ i (h₁ : i < l.length) (h₂ : i < k.length), R l[i] k[i]

/-- The parsed patch `q` is a request to apply the patch `p` in the container at `path`. -/
structure IsApply (q : Parsed) (p : Patch) (path : Str) : Prop where
  type : q.type = 1
  id : q.patchId = p.patchId
  path : cstring q.soFilename = some path
  buildId : q.buildId = p.buildId
  name : cstring q.name = some p.name
  units : All₂ UnitIs q.units p.units
  deps : q.deps = p.deps
  refs : All₂ RefIs q.refs p.refs

/-- The parsed patch `q` is a request to revert the patch `p`. -/
structure IsRevert (q : Parsed) (p : Patch) (path : Str) : Prop where
  type : q.type = 2
  id : q.patchId = p.patchId
  path : cstring q.soFilename = some path
  buildId : q.buildId = p.buildId
  name : cstring q.name = some p.name
  units : q.units = []
  deps : q.deps = []
  refs : q.refs = []

/-- A C string whose size fits 32 bits. -/
def GoodStr (s : Str) : Prop := (0 : UInt8) ∉ s ∧ s.length + 1 < 2 ^ 32 - 1

/-- A patch the packer can have: strings without NUL, ids of 32 bytes, numbers that fit their fields. -/
structure Good (p : Patch) : Prop where
  id : p.patchId.length = 32
  buildId : p.buildId.length < 2 ^ 32
  name : GoodStr p.name
  nunits : p.units.length < 2 ^ 32
  units : ∀ u ∈ p.units, GoodStr u.oldFname ∧ GoodStr u.newFname ∧ u.oldFaddr < 2 ^ 64
  ndeps : p.deps.length < 2 ^ 32
  deps : ∀ d ∈ p.deps, d.length = 32
  nrefs : p.refs.length < 2 ^ 32
  refs : ∀ r ∈ p.refs, GoodStr r.targetName ∧ GoodStr r.referenceName ∧
    r.targetOffset < 2 ^ 64 ∧ r.patchOffset < 2 ^ 64

end Verif.Metadata.Spec
