import Verif.Prepare.Model

/-! When a live patch fits a process, and where the process finds it. -/

namespace Verif.Prepare.Spec

open Metadata

/-- The path of the container for the process: for a process whose root is /proc the files of the system are below `/1/root/`;
then what `--root` says, then the path the tool knows. -/
def pathFor (procRoot : Bool) (userPrefix : Option Str) (real : Str) : Str :=
  (if procRoot then "/1/root/".toUTF8.toList else []) ++ userPrefix.getD [] ++ real

/-- The functions of the patch are in the container. -/
def HasFunctions (h : Host) (real : Str) (p : Patch) : Prop :=
  ∃ syms, h.symbols real = some syms ∧ ∀ u ∈ p.units, u.newFname ∈ syms

/-- The process has loaded a library of the name of the target. -/
def Loaded (t : Target) (p : Patch) : Prop := ∃ d ∈ t.objs, getBasename d.filename = getBasename p.name

/-- It has loaded the very library the patch is for. -/
def LoadedExactly (t : Target) (p : Patch) : Prop :=
  ∃ d ∈ t.objs, getBasename d.filename = getBasename p.name ∧ d.buildId = p.buildId

/-- The queue of the process is not newer than the tool. -/
def NotNewer (t : Target) : Prop := ∀ v, t.queue = some (some v) → v ≤ 1

end Verif.Prepare.Spec
