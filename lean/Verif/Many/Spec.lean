import Verif.Many.Model
import Verif.Session.Spec

/-! What users expect of `ulp trigger` with several live patches. -/

namespace Verif.Many.Spec

open Verif.Runtime.Spec (Patch libKey)
open Verif.Runtime (World Meta)
open Verif.Session (Session Try Ran)
open Verif.Session.Spec

/-- Nobody else uses the process, and the tool's own errors in running a routine are not taken for libpulp's (they are -1, ETIME,
EUNKNOWN and ETARGETHOOK, tools/ptrace.c:500-625). -/
structure Try.Alone (t : Try) : Prop where
  before : t.before = []
  told : ∀ e b, t.runRevert = .failed e b → e ≠ (ENOTARGETLIB : Int) ∧ e ≠ (ENOPATCH : Int)

/-- Moreover nothing fails once libpulp has been asked. -/
structure Try.Quiet (t : Try) : Prop extends Try.Alone t where
  calm : Try.Calm t
  run : ∀ e, t.runRevert ≠ .failed e true
  header : t.queueRevert.header = true
  body : t.queueRevert.body = none
  write : ∀ i, t.queueRevert.write i = none
  reset : t.queueRevert.reset = none
  found : t.queueRevert.found = true

/-- What the tool meets with each live patch is as it should be (see `Session.Spec.Try.Ok`), and errors are not 0. -/
structure Found.Ok (m₀ : Mem) (F slot : Nat → Prop) (f : Found) : Prop where
  early : f.early ≠ some 0
  session : ∀ lib retries, Session.Ok m₀ F slot (f.session lib retries)

/-- The live patches in force, without those of a library. -/
def without (lib : Str) (ps : List Patch) : List Patch := ps.filter fun p => p.lib ≠ libKey lib

/-- The ids of patches. -/
def ids (ps : List Patch) : List (List UInt8) := ps.map fun p => p.id

/-- Nothing at all goes wrong with the tool. -/
structure Try.Smooth (t : Try) : Prop extends Try.Calm t where
  hijack : ¬ t.hijack > 0
  metadata : t.metadata = true
  seccomp : t.seccomp = none
  noMem : t.noMem = none
  done : t.runApply = .done

/-- The live patch can be applied to the process: the library is there, with the functions that are replaced. -/
structure Suits (F : Nat → Prop) (w : World) (m : Meta) : Prop where
  type : m.type = 1
  idle : w.busy = false
  buildId : w.buildIdOk = true
  loads : w.dlopenOk = true
  units : ∀ u ∈ m.units, F (w.oldSym (getBasename m.lib) u.oldName u.oldAddr) ∧ w.newSym u.newName ≠ 0
  names : ∀ r ∈ m.refs, r.patchOff = 0 → w.newSym r.refName ≠ 0
  lib : w.libBase (getBasename m.lib) ≠ 0xff
  base : ∃ so, w.soBase = some so ∧ so ≠ 0
  small : 40 * (m.units.length + m.refs.length) ≤ InsnQueue.bufMax

/-- Nothing stands in the way of the live patch, other than that it is applied already or that it depends on others. -/
structure Found.Smooth (F : Nat → Prop) (f : Found) : Prop where
  early : f.early = none
  tries : ∀ i, Try.Smooth (f.env i)
  suits : ∀ i, Suits F (f.env i).world f.patch

/-- An order in which everything a patch depends on is in force before it (`have_`: what is in force at first). -/
def InOrder (have_ : List (List UInt8)) : List Found → Prop
  | [] => True
  | f :: fs => (∀ d ∈ f.patch.deps, d ∈ have_) ∧ InOrder (f.patch.id :: have_) fs

/-- The live patches in force for a library. -/
def only (lib : Str) (ps : List Patch) : List Patch := ps.filter fun p => p.lib = libKey lib

/-- Reverting all patches of `lib` (or of the library of the live patch, when that is "target") reverts those of the live patch's
library. -/
def Own (lib : Str) (m : Meta) : Prop := lib = Verif.Session.targetName ∨ libKey lib = libKey m.lib

/-- libpulp can be asked to revert patches, and is not busy. -/
structure Try.Reverts (t : Try) : Prop where
  hijack : ¬ t.hijack > 0
  name : t.name = true
  done : t.runRevert = .done
  idle : t.world.busy = false

end Verif.Many.Spec
