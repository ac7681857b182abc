/-!
Model of the memory that handling a request allocates and releases, in the patched process
(`load_metadata`, `unload_metadata`, `ulp_state_update`, `ulp_state_remove`, lib/ulp.c) and in the tool
(`release_ulp_global_metadata`, tools/introspection.c).

Only allocations and releases are modelled.  What is read in between is one step; every step and every
allocation may fail, which ends the parsing there: `budget` is how many of them succeed.
-/

namespace Verif.Heap

/-- A block of memory. -/
abbrev Blk := Nat

/-- The heap: blocks allocated, and the next fresh one. -/
structure Heap where
  live : List Blk
  next : Blk
deriving DecidableEq, Repr

/-- `free`; `none`: undefined, since the block is not allocated. -/
def Heap.free (h : Heap) (b : Blk) : Option Heap :=
  if b ∈ h.live then some { h with live := h.live.erase b } else none

/-- A sequence of calls of `free`. -/
def Heap.freeAll (h : Heap) : List Blk → Option Heap
  | [] => some h
  | b :: bs =>
    match h.free b with
    | none => none
    | some h => h.freeAll bs

/-- `struct ulp_unit` with the blocks of its names. -/
structure UnitB where
  self : Blk
  old : Blk
  new : Blk
deriving DecidableEq, Repr

/-- `struct ulp_reference` with the blocks of its names. -/
structure RefB where
  self : Blk
  target : Blk
  reference : Blk
deriving DecidableEq, Repr

/-- The pointers of `struct ulp_metadata` and its object (include/ulp_common.h:77-135); `comments` is never
set by the parser. -/
structure Md where
  soFilename : Option Blk := none
  obj : Option Blk := none
  buildId : Option Blk := none
  name : Option Blk := none
  units : List UnitB := []
  deps : List Blk := []
  refs : List RefB := []
deriving DecidableEq, Repr

/-- The state of the parser. -/
structure S where
  heap : Heap
  budget : Nat
  md : Md
deriving DecidableEq, Repr

/-- Code that may return early, `none`. -/
def M (α : Type) := S → Option α × S

instance : Monad M where
  pure a := fun s => (some a, s)
  bind m f := fun s =>
    match m s with
    | (none, s) => (none, s)
    | (some a, s) => f a s

/-- Some reading. -/
def step : M Unit := fun s =>
  match s.budget with
  | 0 => (none, s)
  | n + 1 => (some (), { s with budget := n })

/-- `calloc` -/
def calloc : M Blk := fun s =>
  match s.budget with
  | 0 => (none, s)
  | n + 1 => (some s.heap.next, { s with budget := n, heap := ⟨s.heap.next :: s.heap.live, s.heap.next + 1⟩ })

/-- Assignment to the fields of the metadata. -/
def set (f : Md → Md) : M Unit := fun s => (some (), { s with md := f s.md })

/-- Unit loop, common/common.c:355-406: a unit is linked when it is complete. -/
def readUnits : Nat → M Unit
  | 0 => pure ()
  | n + 1 => do
    let u ← calloc
    step
    let old ← calloc
    step
    let new ← calloc
    step
    set fun m => { m with units := m.units ++ [⟨u, old, new⟩] }
    readUnits n

/-- Dependency loop, common/common.c:414-431. -/
def readDeps : Nat → M Unit
  | 0 => pure ()
  | n + 1 => do
    let d ← calloc
    step
    set fun m => { m with deps := m.deps ++ [d] }
    readDeps n

/-- Reference loop, common/common.c:440-502. -/
def readRefs : Nat → M Unit
  | 0 => pure ()
  | n + 1 => do
    let r ← calloc
    step
    let t ← calloc
    step
    let x ← calloc
    step
    set fun m => { m with refs := m.refs ++ [⟨r, t, x⟩] }
    readRefs n

/-- What a metadata file holds, as far as it matters for the memory. -/
structure Shape where
  /-- type 2 -/
  revert : Bool
  units : Nat
  deps : Nat
  refs : Nat
deriving DecidableEq, Repr

/-- common/common.c:263-339 -/
def readHeader : M Unit := do
  step
  let b ← calloc
  set fun m => { m with soFilename := some b }
  step
  let b ← calloc
  set fun m => { m with obj := some b }
  step
  let b ← calloc
  set fun m => { m with buildId := some b }
  step
  let b ← calloc
  set fun m => { m with name := some b }
  step

/-- `parse_metadata_from_mem`, common/common.c:250-508. -/
def parse (sh : Shape) : M Unit := do
  readHeader
  if sh.revert then pure ()
  else do
    step
    readUnits sh.units
    step
    readDeps sh.deps
    step
    readRefs sh.refs

/-- What `free_metadata` releases, in order (common/common.c:512-556).  `ulp->objs` guards the blocks of the
object. -/
def freedByLib (m : Md) : List Blk :=
  m.soFilename.toList ++ m.refs.flatMap (fun r => [r.target, r.reference, r.self]) ++
    (match m.obj with
     | none => []
     | some o => m.units.flatMap (fun u => [u.old, u.new, u.self]) ++ m.name.toList ++ m.buildId.toList ++ [o])

/-- Releases of a list of units or references, the last one first except for the names of units:
`release_ulp_unit`, tools/introspection.c:264-273. -/
def freedUnits : List UnitB → List Blk
  | [] => []
  | u :: us => [u.old, u.new] ++ freedUnits us ++ [u.self]

/-- `release_ulp_dependency`, tools/introspection.c:303-310. -/
def freedDeps : List Blk → List Blk
  | [] => []
  | d :: ds => freedDeps ds ++ [d]

/-- `release_ulp_reference`, tools/introspection.c:320-330. -/
def freedRefs : List RefB → List Blk
  | [] => []
  | r :: rs => freedRefs rs ++ [r.target, r.reference, r.self]

/-- What `release_ulp_global_metadata` releases, tools/introspection.c:338-348, with `release_ulp_object`
(:283-293). -/
def freedByTool (m : Md) : List Blk :=
  m.soFilename.toList ++
    (match m.obj with
     | none => []
     | some o => m.buildId.toList ++ m.name.toList ++ freedUnits m.units ++ [o]) ++
    freedDeps m.deps ++ freedRefs m.refs

/-- The tool: metadata is parsed to the global variable and released again (tools/trigger.c:139, 253, for
example). -/
def toolRound (sh : Shape) (budget : Nat) (h : Heap) : Option Heap :=
  let s := (parse sh ⟨h, budget, {}⟩).2
  s.heap.freeAll (freedByTool s.md)

/-! ### The patched process -/

/-- `struct ulp_applied_patch`: the blocks. -/
structure Applied where
  self : Blk
  libName : Blk
  containerName : Blk
  deps : List Blk
  units : List Blk
deriving DecidableEq, Repr

/-- Allocation of one block for each element of a list that is put together in reverse or not. -/
def callocs : Nat → M (List Blk)
  | 0 => pure []
  | n + 1 => do
    let b ← calloc
    let bs ← callocs n
    pure (b :: bs)

/-- `ulp_state_update`, lib/ulp.c:757-848: names, dependencies, then a block for each unit, whose
symbols are looked up. -/
def stateUpdate (sh : Shape) : M Applied := do
  let self ← calloc
  let lib ← calloc
  let cont ← calloc
  let deps ← callocs sh.deps
  let units ← callocs sh.units
  step
  pure ⟨self, lib, cont, deps, units⟩

/-- `ulp_apply_all_units`, lib/ulp.c:633-753: a detour for each unit and a root for those functions that
had none, which are `roots` many. -/
def applyUnits (sh : Shape) (roots : Nat) : M Unit := do
  let _ ← callocs (sh.units + roots)
  pure ()

/-- What became of a request. -/
inductive Outcome where
  /-- An error is returned, nothing was changed. -/
  | refused
  | applied (p : Applied)
  | reverted
  /-- `libpulp_exit`, lib/ulp.c:497 -/
  | exited
deriving DecidableEq, Repr

/-- `load_patch` for a patch to apply, lib/ulp.c:473-532, with `load_metadata` (:313-338),
`unload_metadata` (:305-310).  `none`: undefined behaviour. -/
def applyRequest (sh : Shape) (roots budget : Nat) (h : Heap) : Option (Outcome × Heap) :=
  -- the structure itself, :322
  match calloc ⟨h, budget, {}⟩ with
  | (none, s) => some (.refused, s.heap)
  | (some _, s) =>
    match parse sh s with
    | (none, s) => (s.heap.freeAll (freedByLib s.md)).map fun h => (.refused, h)
    | (some (), s) =>
      match stateUpdate sh s with
      | (none, s) => (s.heap.freeAll (freedByLib s.md)).map fun h => (.refused, h)
      | (some a, s) =>
        match applyUnits sh roots s with
        | (none, s) => some (.exited, s.heap)
        | (some (), s) => (s.heap.freeAll (freedByLib s.md)).map fun h => (.applied a, h)

/-- `ulp_state_remove`, lib/ulp.c:1171-1212: the blocks released. -/
def freedByRemove (a : Applied) : List Blk := a.units ++ a.deps ++ [a.libName, a.self]

/-- `load_patch` for the metadata to revert patch `a`, which is applied and which `ulp_can_revert_patch`
(lib/ulp.c:541-581) allows to revert; the requests it refuses are not modelled. -/
def revertRequest (a : Applied) (budget : Nat) (h : Heap) : Option (Outcome × Heap) :=
  match calloc ⟨h, budget, {}⟩ with
  | (none, s) => some (.refused, s.heap)
  | (some _, s) =>
    match parse ⟨true, 0, 0, 0⟩ s with
    | (none, s) => (s.heap.freeAll (freedByLib s.md)).map fun h => (.refused, h)
    | (some (), s) =>
      match s.heap.freeAll (freedByRemove a) with
      | none => none
      | some h => (h.freeAll (freedByLib s.md)).map fun h => (.reverted, h)

end Verif.Heap
