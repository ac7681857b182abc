import Verif.Runtime.Model

/-!
Model of the containers of livepatches in the patched process: `load_so_handlers` (lib/ulp.c:278-298), which
`parse_metadata` (:440-465) calls, on top of `Verif.Runtime`, and `dlopen` of the C library as far as it matters
which file an object comes from.  Containers are never closed: the only call of `dlclose` (`unload_handlers`,
:245-253) is made when there is no handle (:291-293).  The memory of `Verif.Runtime` holds the functions of the
program and the references; that of the containers' own code is represented by the file it was loaded from.
-/

namespace Verif.Container

open Verif.Runtime

/-- A file with a shared object: which file it is (device and inode), whether it can be loaded, and the offsets of its
functions.  Two files at the same path at different times have different inodes, or the same if the file was
overwritten. -/
structure File where
  inode : Nat
  loads : Bool
  syms : Str → Option Nat

/-- An object loaded in the process: its names, the file as it was when it was loaded, where it was loaded, and whether
libpulp holds a handle of it. -/
structure Obj where
  names : List Str
  file : File
  base : Nat
  pinned : Bool

/-- The run-time address of a function, 0 if there is none: `load_so_symbol`, lib/ulp.c:262-275. -/
def Obj.sym (o : Obj) (n : Str) : Nat :=
  match o.file.syms n with
  | some v => (o.base + v) % 2 ^ 64
  | none => 0

/-- The files as they are during a request, and where a new object is mapped. -/
structure Disk where
  file : Str → Option File
  base : Nat

/-- The first object with the property, changed. -/
def take (p : Obj → Bool) (f : Obj → Obj) : List Obj → Option (Obj × List Obj)
  | [] => none
  | o :: os => if p o then some (f o, f o :: os) else (take p f os).map fun x => (x.1, o :: x.2)

/-- `dlopen (path, RTLD_NOW)`, lib/ulp.c:417-429, by the C library: an object with that name, otherwise one from the
same file (which gets the name too), otherwise the file is loaded.  Paths given by the tool have a slash, so there is no
search.  Failures other than that the file is missing or not loadable are left out. -/
def dlopen (d : Disk) (path : Str) (objs : List Obj) : Option Obj × List Obj :=
  match take (fun o => o.names.contains path) (fun o => { o with pinned := true }) objs with
  | some (o, l) => (some o, l)
  | none =>
    match d.file path with
    | none => (none, objs)
    | some f =>
      match take (fun o => o.file.inode == f.inode) (fun o => { o with names := path :: o.names, pinned := true }) objs with
      | some (o, l) => (some o, l)
      | none => if f.loads then (some ⟨[path], f, d.base, true⟩, objs ++ [⟨[path], f, d.base, true⟩]) else (none, objs)

structure Proc where
  rt : State
  objs : List Obj

/-- `load_so_handlers` is called: lib/ulp.c:186-201, 448-458. -/
def opens (s : State) (w : World) (m : Meta) : Bool :=
  match gate w s with
  | (_, some _) => false
  | (s, none) => decide (m.type ≠ 2) && decide (sanity w m s = 0)

/-- What libpulp gets from the container. -/
def worldOf (h : Option Obj) (w : World) : World :=
  { w with dlopenOk := h.isSome, newSym := fun n => (h.map fun o => o.sym n).getD 0, soBase := h.map fun o => o.base }

inductive Act where
  /-- A request with metadata, to apply or revert. -/
  | apply (d : Disk) (w : World) (m : Except Err Meta)
  /-- Another request. -/
  | other (r : Request)
  /-- The program closes some of the objects it has opened, and opens others (or the objects they need). -/
  | program (keep : Obj → Bool) (new : List Obj)

/-- The container and the objects loaded afterwards, if a request is served now. -/
def opened (p : Proc) (d : Disk) (w : World) (m : Except Err Meta) : Option Obj × List Obj :=
  match m with
  | .ok m => if opens p.rt w m then dlopen d m.soName p.objs else (none, p.objs)
  | .error _ => (none, p.objs)

/-- One event, with the answer if it is a request. -/
def step (fuel : Nat) (p : Proc) : Act → Option (Proc × Option Nat)
  | .apply d w m =>
    let h := opened p d w m
    (serve fuel p.rt (.apply (worldOf h.1 w) m)).map fun x => (⟨x.1, h.2⟩, some x.2)
  | .other (.apply _ _) => none
  | .other r => (serve fuel p.rt r).map fun x => (⟨x.1, p.objs⟩, some x.2)
  | .program keep new =>
    some (⟨p.rt, p.objs.filter (fun o => o.pinned || keep o) ++ new.map fun o => { o with pinned := false }⟩, none)

def run (fuel : Nat) : Proc → List Act → Option Proc
  | p, [] => some p
  | p, a :: as => (step fuel p a).bind fun x => run fuel x.1 as

end Verif.Container
