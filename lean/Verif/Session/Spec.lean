import Verif.Session.Model
import Verif.Runtime.Spec

/-! What users of `ulp trigger` expect, in terms of results and of where calls go. -/

namespace Verif.Session.Spec

open Verif.Runtime.Spec (Patch track replacement Fits)
open Verif.Runtime (Request)

/-- The patches in force by what libpulp was asked and answered. -/
def notes (ps : List Patch) (l : Log) : List Patch := l.foldl (fun ps e => track ps e.1 e.2) ps

/-- In memory `m`, all calls of live-patchable functions go to the newest replacement in `ps`, or to the original. -/
def Follow (m₀ : Mem) (F : Nat → Prop) (m : Mem) (ps : List Patch) : Prop :=
  ∀ f, F f → X86.Spec.callDest m f = some ((replacement ps f).getD (X86.Spec.body m₀ f))

/-- Failures in executing the queue, other than of writes. -/
def QFault.Ok (q : QFault) : Prop := (∀ i, q.write i = none) ∧ ∀ e, q.body = some e → e ≠ 0 ∧ e < 256

def Ran.Ok (r : Ran) : Prop := ∀ e b, r = .failed e b → e ≠ 0

/-- The requests fit the process; error codes are not 0; no single write of the queue fails. -/
structure Try.Ok (m₀ : Mem) (F slot : Nat → Prop) (t : Try) : Prop where
  before : ∀ r ∈ t.before, Fits m₀ F slot r
  runRevert : Ran.Ok t.runRevert
  queueRevert : QFault.Ok t.queueRevert
  seccomp : t.seccomp ≠ some 0
  noMem : t.noMem ≠ some 0
  runApply : Ran.Ok t.runApply
  queueApply : QFault.Ok t.queueApply

structure Session.Ok (m₀ : Mem) (F slot : Nat → Prop) (x : Session) : Prop where
  tries : ∀ i, Try.Ok m₀ F slot (x.env i)
  fits : ∀ m, x.patch = some m → ∀ i, Fits m₀ F slot (.apply (x.env i).world (.ok m))

/-- The tool knows where the queue is. -/
def Session.Found (x : Session) : Prop := ∀ i, (x.env i).queueRevert.found = true ∧ (x.env i).queueApply.found = true

/-- What the run is for: to apply (or revert) the patch, or else to revert all patches of the library. -/
def Session.Goal (x : Session) (r : Request) : Prop :=
  (∃ m i, x.patch = some m ∧ r = .apply (x.env i).world (.ok m)) ∨
  (x.patch = none ∧ ∃ lib i, x.lib = some lib ∧ r = .revertAll (x.env i).world lib)

/-- Nothing fails once libpulp has been asked, and nobody else uses the process. -/
structure Try.Calm (t : Try) : Prop where
  before : t.before = []
  run : ∀ e, t.runApply ≠ .failed e true
  found : t.queueApply.found = true
  header : t.queueApply.header = true
  body : t.queueApply.body = none
  write : ∀ i, t.queueApply.write i = none
  reset : t.queueApply.reset = none

end Verif.Session.Spec
