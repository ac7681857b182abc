import Verif.Loader.Model
import Verif.Session.Spec

/-! What a user expects of the code that live patches bring. -/

namespace Verif.Loader.Spec

open Verif.Loader
open Verif.Runtime (Meta World)

/-- An address inside an object. -/
def Covers (o : Obj) (a : Nat) : Prop := o.base ≤ a ∧ a < o.base + o.img.size

/-- A process before any request: no two objects overlap and files are as they were loaded. -/
structure Tidy (fs : Str → Option File) (objs : List Obj) : Prop where
  apart : objs.Pairwise fun o o' => o'.base + o'.img.size ≤ o.base ∨ o.base + o.img.size ≤ o'.base
  files : Coherent fs objs

/-- The replacement of the function at `f` by the metadata: the name of the last one given for it. -/
def replacementName (w : World) (m : Meta) (f : Nat) : Option Str :=
  ((m.units.filter fun u => w.oldSym (getBasename m.lib) u.oldName u.oldAddr = f).getLast?).map fun u => u.newName

/-- Same object, perhaps opened more or less often. -/
def Same (o o' : Obj) : Prop := o'.img = o.img ∧ o'.base = o.base

end Verif.Loader.Spec
