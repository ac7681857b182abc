import Verif.Flow.Model
import Verif.Dsc.Props
import Verif.Runtime.PropsMore
import Verif.SymLoad.Props

/-!
What those who write descriptions and apply live patches expect, in terms of the descriptions, the symbol tables and
where things are loaded.
-/

namespace Verif.Flow.Spec

open Verif.Extract (SoInfo)
open Verif.Dsc.Spec (Desc Entry funcs refs At RefFor)
open Verif.Runtime.Spec (Patch libKey inPad)

/-- The offset the symbol table has for a name. -/
def offsetOf (i : SoInfo) (n : Str) : Nat := ((i.symbols.find? (·.name == n)).map (·.offset.toNat)).getD 0

/-- The name stands for one offset. -/
def Clear (i : SoInfo) (n : Str) : Prop := ∀ s ∈ i.symbols, s.name = n → s.offset.toNat = offsetOf i n

/-- A reference: whether it is to a thread-local variable, its name, its offset in the container, and the offset of
the variable in the target (or in the thread's block of the target). -/
structure Link where
  tls : Bool
  name : Str
  offset : Nat
  points : Nat
deriving DecidableEq, Repr

/-- How many bytes a reference takes. -/
def Link.size (l : Link) : Nat := if l.tls then 16 else 8

/-- A live patch and the situation in which it is applied or reverted: the description, the symbol tables of the
container (`c`) and of the target (`t`), the ids of the patches it depends on, its id and path; the objects of the
process: `target` is the target, `before` and `after` are the others; where the container is loaded. -/
structure Plan where
  d : Desc
  env : Dsc.Env
  c : SoInfo
  t : SoInfo
  deps : List Bytes
  id : Bytes
  path : Str
  before : List SymLoad.Obj
  target : SymLoad.Obj
  after : List SymLoad.Obj
  prog : Str
  w : Runtime.World
  base : Nat
  c0 : Bytes

/-- The container, packed from the text of the description. -/
def Plan.job (p : Plan) : Job := ⟨p.env, p.id, p.d.render, p.path⟩

/-- The loaded objects. -/
def Plan.objs (p : Plan) : List SymLoad.Obj := p.before ++ p.target :: p.after

/-- Where a function of the target is. -/
def Plan.old (p : Plan) (n : Str) : Nat := p.target.bias + offsetOf p.t n

/-- Where a function of the container is. -/
def Plan.new (p : Plan) (n : Str) : Nat := p.base + offsetOf p.c n

/-- The patch as it is written in the description. -/
def Plan.patch (p : Plan) : Patch where
  id := p.id
  lib := libKey p.t.name
  deps := p.deps.reverse
  repl := (funcs p.d.entries).map fun f => (p.old f.1, p.new f.2)

/-- The description is a good one, and packed. -/
structure Plan.Packable (p : Plan) : Prop where
  good : p.d.Good p.env p.c p.t p.deps
  fits : Dsc.Fits p.d p.t p.id
  path : 0 ∉ p.path ∧ p.path ≠ []

/-- The reference of an entry of the description. -/
def Plan.link (p : Plan) : Entry → Option Link
  | .ref tls tn rn => some ⟨tls, rn, offsetOf p.c rn, offsetOf p.t tn⟩
  | .refAt tls _ rn a b => some ⟨tls, rn, Dsc.Spec.hexValue b, Dsc.Spec.hexValue a⟩
  | _ => none

/-- The references of the description. -/
def Plan.links (p : Plan) : List Link := p.d.entries.filterMap p.link

/-- Where a reference is stored, the container being loaded at `so`; one at the start of the container is searched by
name. -/
def Plan.slotAt (p : Plan) (so : Nat) (l : Link) : Nat :=
  if l.offset = 0 then p.w.newSym l.name else (so + l.offset) % 2 ^ 64

/-- The process fits the description: the target's name is not that of the program; the target is the first loaded
object with that name in its path, and it has the symbol tables every library has; the functions to be replaced are
live-patchable functions `F`, `dlsym` finds the new ones where the container has them, outside of the pad of the old
one; the references are in the places `slot` meant for them. -/
structure Plan.Fits (p : Plan) (m₀ : Mem) (F slot : Nat → Prop) : Prop where
  name : getBasename p.t.name ≠ p.prog
  before : ∀ o ∈ p.before, ¬ SymLoad.Mentions (getBasename p.t.name) o ∨ o.name = SymLoad.vdso
  target : getBasename p.target.name = getBasename p.t.name
  vdso : p.target.name ≠ SymLoad.vdso
  tables : SymLoad.HasTables p.target
  funcs : ∀ f ∈ funcs p.d.entries, Clear p.t f.1 ∧ offsetOf p.t f.1 ≠ 0 ∧ F (p.old f.1) ∧ p.old f.1 < 2 ^ 64 ∧
    p.w.newSym f.2 = p.new f.2 ∧ p.new f.2 < 2 ^ 64 ∧ ¬ inPad m₀ (p.old f.1) (p.new f.2)
  clear : ∀ tls tn rn, Entry.ref tls tn rn ∈ p.d.entries → Clear p.t tn ∧ Clear p.c rn
  links : ∀ l ∈ p.links, ∀ so, p.w.soBase = some so → p.slotAt so l < 2 ^ 64 ∧
    ∀ i, p.slotAt so l ≤ i → i < p.slotAt so l + l.size → slot i

/-- What an entry takes at most in the metadata. -/
def cost (e : Entry) : Nat := e.text.length + 40

/-- The metadata fits the buffer of 512 KiB. -/
def Plan.Small (p : Plan) : Prop :=
  p.path.length + 1 < 4096 ∧
  p.t.name.length + 32 * p.d.deps.length + (p.d.entries.map cost).sum + p.path.length + 79 < 512 * 1024

/-- Nothing stands in the way of applying the patch, the patches `ps` being applied: no thread is in the allocator or
the loader, the check of the build id (see C26) succeeds, the container can be loaded, the patches it depends on are
applied and it is not itself; all that is searched for is found. -/
structure Plan.Ready (p : Plan) (ps : List Patch) : Prop where
  idle : p.w.busy = false
  buildId : p.w.buildIdOk = true
  loads : p.w.dlopenOk = true
  deps : ∀ d ∈ p.deps, ∃ q ∈ ps, q.id = d
  fresh : ∀ q ∈ ps, q.id ≠ p.id
  funcs : ∀ f ∈ funcs p.d.entries, p.new f.2 ≠ 0
  names : ∀ l ∈ p.links, l.offset = 0 → p.w.newSym l.name ≠ 0
  base : ∃ so, p.w.soBase = some so ∧ so ≠ 0
  bias : p.target.bias ≠ 0xff
  small : p.Small

/-- What a user does. -/
inductive Order where
  | apply (p : Plan)
  | revert (p : Plan)
  | revertAll (objs : List SymLoad.Obj) (prog : Str) (w : Runtime.World) (lib : Str)
  | check (id : Bytes)
  | toggle

def Order.act : Order → Act
  | .apply p => .trigger p.job false p.objs p.prog p.w p.c0
  | .revert p => .trigger p.job true p.objs p.prog p.w p.c0
  | .revertAll objs prog w lib => .revertAll objs prog w lib
  | .check id => .check id
  | .toggle => .toggle

def Order.Ok (m₀ : Mem) (F slot : Nat → Prop) : Order → Prop
  | .apply p => p.Packable ∧ p.Fits m₀ F slot
  | .revert p => p.Packable
  | .revertAll _ _ _ lib => 0 ∉ lib
  | .check id => id.length = 32
  | .toggle => True

/-- The user's notes: what was applied successfully is put on top, what was reverted successfully is taken away. -/
def note (ps : List Patch) : Order → (answer : Nat) → List Patch
  | .apply p, 0 => p.patch :: ps
  | .revert p, 0 => ps.filter (fun q => q.id ≠ p.id)
  | .revertAll _ _ _ lib, 0 => ps.filter (fun q => q.lib ≠ libKey lib)
  | _, _ => ps

def noteAll (ps : List Patch) : List Order → List Nat → List Patch
  | o :: os, a :: as => noteAll (note ps o a) os as
  | _, _ => ps

end Verif.Flow.Spec
