import Verif.Runtime.Model

/-!
The containers of live patches in a process: `load_so_handlers` and `load_so` (lib/ulp.c:288-298, 419-429) call `dlopen`, `load_so_symbol` (:263-275) calls `dlsym`;
`unload_handlers` (:246-253), the only caller of `dlclose`, is called only when `dlopen` failed (:293), when there is nothing to close.

The loader itself, as dlopen(3) and glibc describe it: an object is loaded once, found again by the name it was opened with or else by its inode, counted, and unmapped when nobody
uses it any more. Objects that a container depends on, `DT_SONAME` and symbols found in dependencies are left out; files are replaced, not overwritten.
-/

namespace Verif.Loader

open Verif.Runtime (State Request World Meta)

/-- The contents of a shared object: its size and where its symbols are (0: not defined). -/
structure Image where
  size : Nat
  sym : Str → Nat
  inside : ∀ n, sym n = 0 ∨ sym n < size

/-- A file that can be loaded. -/
structure File where
  ino : Nat
  img : Image

/-- An object in the process: the names it was opened with, what was loaded and where, and how often libpulp and the program have opened it. -/
structure Obj where
  names : List Str
  ino : Nat
  img : Image
  base : Nat
  ulp : Nat
  prog : Nat

/-- Opened once more, by libpulp or by the program. -/
def Obj.take (byUlp : Bool) (o : Obj) : Obj := if byUlp then { o with ulp := o.ulp + 1 } else { o with prog := o.prog + 1 }

/-- Change the first object of that kind. -/
def change (p : Obj → Bool) (g : Obj → Obj) : List Obj → List Obj
  | [] => []
  | o :: os => if p o then g o :: os else o :: change p g os

/-- `dlopen`: the objects afterwards, and the one that was opened. `base`: where a new one is mapped. -/
def openObj (byUlp : Bool) (fs : Str → Option File) (objs : List Obj) (path : Str) (base : Nat) : Option (List Obj × Obj) :=
  match objs.find? (fun o => o.names.contains path) with
  | some o => some (change (fun o => o.names.contains path) (Obj.take byUlp) objs, o)
  | none =>
    match fs path with
    | none => none
    | some f =>
      match objs.find? (fun o => o.ino == f.ino) with
      | some o => some (change (fun o => o.ino == f.ino) (fun o => Obj.take byUlp { o with names := o.names ++ [path] }) objs, o)
      | none =>
        let o : Obj := ⟨[path], f.ino, f.img, base, 0, 0⟩
        some (objs ++ [o.take byUlp], o)

/-- `dlclose` by the program of the object number `i`, which it has opened. -/
def closeObj (objs : List Obj) (i : Nat) : List Obj :=
  match objs[i]? with
  | none => objs
  | some o => if o.ulp = 0 ∧ o.prog ≤ 1 then objs.eraseIdx i else objs.set i { o with prog := o.prog - 1 }

/-- `dlsym` in an object, lib/ulp.c:268: 0 if not found. -/
def Obj.addr (o : Obj) (name : Str) : Nat := if o.img.sym name = 0 then 0 else o.base + o.img.sym name

/-- What the process answers to a request to apply the container `path`: what the loader says (lib/ulp.c:289, :709, :728, :819), the rest as in `v`. -/
def worldOf (v : World) (opened : Option (List Obj × Obj)) : World :=
  match opened with
  | none => { v with dlopenOk := false }
  | some (_, o) => { v with dlopenOk := true, newSym := o.addr, soBase := some o.base }

/-- Whether `load_so_handlers` is called, lib/ulp.c:186-201, 451-457. -/
def reaches (v : World) (m : Meta) (s : State) : Bool :=
  let g := Runtime.gate v s
  g.2.isNone && m.type != 2 && Runtime.sanity v m g.1 == 0

/-- The process, the files, what libpulp was asked and answered so far. -/
structure Conf where
  fs : Str → Option File
  objs : List Obj
  s : State
  log : List (Request × Nat)

/-- There is room for an object of that size. -/
def Free (objs : List Obj) (base size : Nat) : Prop := 0 < base ∧ ∀ o ∈ objs, base + size ≤ o.base ∨ o.base + o.img.size ≤ base

/-- Files that are links to each other are the same, and an object is what the file that it was loaded from is. -/
structure Coherent (fs : Str → Option File) (objs : List Obj) : Prop where
  links : ∀ p q f g, fs p = some f → fs q = some g → f.ino = g.ino → f.img = g.img
  loaded : ∀ p f, fs p = some f → ∀ o ∈ objs, o.ino = f.ino → o.img = f.img

/-- The answers to a request to apply `m`. -/
def Conf.world (c : Conf) (v : World) (m : Meta) (base : Nat) : World := worldOf v (openObj true c.fs c.objs m.soName base)

/-- After the request was answered by `a` and libpulp's state became `s`. -/
def Conf.after (c : Conf) (v : World) (m : Meta) (base : Nat) (s : State) (a : Nat) : Conf :=
  { c with
    s := s
    log := c.log ++ [(.apply (c.world v m base) (.ok m), a)]
    objs := match openObj true c.fs c.objs m.soName base with
      | none => c.objs
      | some (objs, _) => if reaches v m c.s then objs else c.objs }

/-- One event. `okR`: the requests that are made. -/
inductive Step (fuel : Nat) (okR : Request → Prop) : Conf → Conf → Prop
  /-- Files come, go and are replaced. -/
  | files (c : Conf) (fs : Str → Option File) : Coherent fs c.objs → Step fuel okR c { c with fs := fs }
  | progOpen (c : Conf) (path : Str) (base : Nat) (objs : List Obj) (o : Obj) : (∀ f, c.fs path = some f → Free c.objs base f.img.size) →
      openObj false c.fs c.objs path base = some (objs, o) → Step fuel okR c { c with objs := objs }
  | progClose (c : Conf) (i : Nat) (o : Obj) : c.objs[i]? = some o → 0 < o.prog → Step fuel okR c { c with objs := closeObj c.objs i }
  /-- `__ulp_apply_patch`, lib/ulp.c:181-212, and the tool executing the queue. -/
  | apply (c : Conf) (v : World) (m : Meta) (base : Nat) (s : State) (a : Nat) : (∀ f, c.fs m.soName = some f → Free c.objs base f.img.size) →
      okR (.apply (c.world v m base) (.ok m)) → Runtime.serve fuel c.s (.apply (c.world v m base) (.ok m)) = some (s, a) →
      Step fuel okR c (c.after v m base s a)
  /-- Other requests, and metadata that could not be parsed (lib/ulp.c:449-452). -/
  | other (c : Conf) (r : Request) (s : State) (a : Nat) : (∀ w m, r ≠ .apply w (.ok m)) → okR r → Runtime.serve fuel c.s r = some (s, a) →
      Step fuel okR c { c with s := s, log := c.log ++ [(r, a)] }

/-- Any number of events. -/
inductive Steps (fuel : Nat) (okR : Request → Prop) (c : Conf) : Conf → Prop
  | refl : Steps fuel okR c c
  | tail {d e : Conf} : Steps fuel okR c d → Step fuel okR d e → Steps fuel okR c e

/-- A process with some objects loaded, in which libpulp was not asked anything yet. -/
def start (fs : Str → Option File) (objs : List Obj) (m₀ : Mem) : Conf := ⟨fs, objs, State.init m₀, []⟩

end Verif.Loader
