import Verif.Base.Str
import Verif.InsnQueue.Model
import Verif.X86.Model

/-!
Model of libpulp inside the patched process (x86-64): lib/ulp.c, together with the tool executing
libpulp's instruction queue after each request.  Memory allocation failures are not modelled.
-/

namespace Verif.Runtime

open Verif.InsnQueue (Queue)

/-- 32-byte patch identifier; compared with `memcmp(.., 32)` in C, with `=` here. -/
abbrev Id := List UInt8

/-- `struct ulp_detour`, include/ulp.h:60-79. -/
structure Detour where
  univ : Nat
  target : Nat
  id : Id
  active : Bool
deriving DecidableEq, Repr

/-- `struct ulp_detour_root`, include/ulp.h:39-52. -/
structure Root where
  index : Nat
  addr : Nat
  detours : List Detour
deriving DecidableEq, Repr

/-- `struct ulp_applied_patch`, include/ulp_common.h:190-203.  `units` holds the `patched_addr` and `target_addr` of
each `struct ulp_applied_unit`; `overwritten_bytes`, `timestamp` are never read back by libpulp and
left out. -/
structure Applied where
  id : Id
  lib : Str
  container : Str
  deps : List Id
  units : List (Nat × Nat)
deriving DecidableEq, Repr

/-- Globals of libpulp and the memory of the process: `__ulp_error_state` (lib/error.c:40),
`__ulp_state.patches`, `__ulp_root`, `__ulp_global_universe`, `__ulp_root_index_counter` (lib/ulp.c:47-56),
`__ulp_insn_queue`. The counters are unbounded here (64 and 32 bits in C). Lists have the first C
list element first. -/
structure State where
  err : Err
  patches : List Applied
  roots : List Root
  univ : Nat
  rootCounter : Nat
  q : Queue
  mem : Mem

/-- A freshly started process. -/
def State.init (m : Mem) : State :=
  { err := ENONE, patches := [], roots := [], univ := 0, rootCounter := 0, q := .fresh, mem := m }

/-- `struct ulp_unit`, include/ulp_common.h:138-150. -/
structure UnitM where
  oldName : Str
  newName : Str
  oldAddr : Nat
deriving DecidableEq, Repr

/-- `struct ulp_reference`, include/ulp_common.h:165-186. -/
structure RefM where
  targetName : Str
  refName : Str
  targetOff : Nat
  patchOff : Nat
  tls : Bool
deriving DecidableEq, Repr

/-- Parsed `struct ulp_metadata`, include/ulp_common.h:78-103 (parsing itself: `Verif.Metadata`). -/
structure Meta where
  type : Nat
  id : Id
  soName : Str
  lib : Str
  units : List UnitM
  deps : List Id
  refs : List RefM
deriving DecidableEq, Repr

/-- What the rest of the process answers while a request is served: whether it is busy in the
allocator or loader (`__ulp_asunsafe_trylock`, lib/interpose.c:369), whether the build id check
succeeds (lib/ulp.c:1034, modelled in `Verif.BuildId`), `dlopen` (lib/ulp.c:287), address lookups
(`get_loaded_symbol_addr`, `load_so_symbol`; 0 is NULL), `get_loaded_library_base_addr` (0xFF: not
found), `get_loaded_library_tls_index`, and `dlinfo` on the livepatch (`none`: failure).
These answers do not change during one request. -/
structure World where
  busy : Bool
  buildIdOk : Bool
  dlopenOk : Bool
  oldSym : Str → Str → Nat → Nat
  newSym : Str → Nat
  libBase : Str → Nat
  tlsIdx : Str → Nat
  soBase : Option Nat

/-- `ULP_PATH_LEN`, include/ulp_common.h:39. -/
def pathLen : Nat := 256

/-- `memwrite`, lib/ulp.c:77-86 (all callers ignore its result). -/
def memwrite (s : State) (a : Nat) (bs : List UInt8) : State :=
  let l := (InsnQueue.insert ⟨s.q, s.err⟩ (.write a bs)).1
  { s with q := l.q, err := l.err }

/-- `ulp_patch_addr` queueing its write, lib/arch/x86_64/patch.c:115-169. -/
def patchAddr (s : State) (old new : Nat) (enable : Bool) : State × Err :=
  match X86.patchAddr s.mem old new enable with
  | .error e => (s, e)
  | .ok (a, bs) => (memwrite s a bs, 0)

/-- `push_new_detour` on the root of `old`, creating the root if there is none:
lib/ulp.c:658-671, 604-622, 1104-1126. -/
def addDetour (s : State) (old : Nat) (d : Detour) : State :=
  let s := if s.roots.any (fun r => r.addr == old) then s
    else { s with roots := { index := s.rootCounter, addr := old, detours := [] } :: s.roots,
                  rootCounter := s.rootCounter + 1 }
  let rec push : List Root → List Root
    | [] => []
    | r :: rs => if r.addr = old then { r with detours := d :: r.detours } :: rs else r :: push rs
  { s with roots := push s.roots }

/-- The unit loop of `ulp_apply_all_units`, lib/ulp.c:647-679. -/
def applyUnits (w : World) (lib : Str) (id : Id) : List UnitM → State → State × Err
  | [], s => (s, 0)
  | u :: us, s =>
    let old := w.oldSym (getBasename lib) u.oldName u.oldAddr
    if old = 0 then (s, ENOOLDFUNC)
    else
      let new := w.newSym u.newName
      if new = 0 then (s, ENONEWFUNC)
      else
        let s := addDetour s old { univ := s.univ, target := new, id := id, active := true }
        match patchAddr s old new true with
        | (s, e) => if e > 0 then (s, e) else applyUnits w lib id us s

/-- The reference loop of `ulp_apply_all_units`, lib/ulp.c:719-750. `TLS_DTV_OFFSET` is 0 on x86-64
(include/arch/x86_64/arch_common.h:8). -/
def applyRefs (w : World) (targetBase tlsIdx soBase : Nat) : List RefM → State → State × Err
  | [], s => (s, 0)
  | r :: rs, s =>
    let addr := if r.patchOff = 0 then w.newSym r.refName else (soBase + r.patchOff) % 2 ^ 64
    if r.patchOff = 0 ∧ addr = 0 then (s, ENONEWFUNC)
    else
      let bytes := if r.tls then le 8 tlsIdx ++ le 8 r.targetOff
        else le 8 (targetBase + r.targetOff)
      applyRefs w targetBase tlsIdx soBase rs (memwrite s addr bytes)

/-- `ulp_apply_all_units`, lib/ulp.c:634-753. -/
def applyAllUnits (w : World) (m : Meta) (s : State) : State × Err :=
  match applyUnits w m.lib m.id m.units { s with univ := s.univ + 1 } with
  | (s, e) =>
    if e ≠ 0 then (s, e)
    else if w.libBase (getBasename m.lib) = 0xff then (s, ENOADDRESS)
    else match w.soBase with
      | none => (s, EUNKNOWN)
      | some soBase =>
        if soBase = 0 then (s, ENOADDRESS)
        else applyRefs w (w.libBase (getBasename m.lib)) (w.tlsIdx (getBasename m.lib)) soBase m.refs s

/-- Resolution of the units in `ulp_state_update`, lib/ulp.c:805-836; `none` if some symbol is
missing. -/
def resolveUnits (w : World) (lib : Str) : List UnitM → Option (List (Nat × Nat))
  | [] => some []
  | u :: us =>
    let old := w.oldSym (getBasename lib) u.oldName u.oldAddr
    if old = 0 then none
    else
      let new := w.newSym u.newName
      if new = 0 then none else (resolveUnits w lib us).map ((old, new) :: ·)

/-- `ulp_state_update`, lib/ulp.c:758-848; `none` on failure, when nothing has changed. -/
def stateUpdate (w : World) (m : Meta) (s : State) : Option State :=
  (resolveUnits w m.lib m.units).map fun us =>
    { s with patches := { id := m.id, lib := (getBasename m.lib).take pathLen,
                          container := m.soName.take pathLen, deps := m.deps.reverse,
                          units := us } :: s.patches }

/-- `ulp_get_applied_patch`, lib/ulp.c:1124-1134. -/
def getApplied (s : State) (id : Id) : Option Applied := s.patches.find? (fun p => p.id == id)

/-- `check_patch_dependencies`, lib/ulp.c:940-962. -/
def depsOk (s : State) (deps : List Id) : Bool := deps.all fun d => s.patches.any fun p => p.id == d

/-- `check_patch_sanity`, lib/ulp.c:914-927. -/
def sanity (w : World) (m : Meta) (s : State) : Err :=
  if !w.buildIdOk then EBUILDID
  else if !depsOk s m.deps then EDEPEND
  else if (getApplied s m.id).isSome then EAPPLIED
  else 0

/-- `ulp_can_revert_patch`, lib/ulp.c:542-570. -/
def canRevert (s : State) (id : Id) : Err :=
  if (getApplied s id).isNone then ENOTAPPLIED
  else if s.patches.any (fun p => p.deps.any (fun d => d == id)) then EDEPEND
  else 0

/-- `ulp_state_remove`, lib/ulp.c:1172-1212: removes the first patch with that id. -/
def stateRemove (s : State) (id : Id) : State × Bool :=
  ({ s with patches := s.patches.eraseP (fun p => p.id == id) }, s.patches.any (fun p => p.id == id))

/-- Inner loop of `ulp_revert_all_units` on one function, lib/ulp.c:1232-1256.  `done` are the
detours already visited (newest first). -/
def revertRoot (id : Id) (addr : Nat) (done : List Detour) : List Detour → State → State × List Detour
  | [], s => (s, done)
  | d :: rest, s =>
    if d.id = id then
      let d := { d with active := false }
      let s := match (done ++ d :: rest).find? (fun d => d.active) with
        | none => (patchAddr s addr 0 false).1
        | some a => (patchAddr s addr a.target true).1
      revertRoot id addr (done ++ [d]) rest s
    else revertRoot id addr (done ++ [d]) rest s

/-- `ulp_revert_all_units`, lib/ulp.c:1224-1259. -/
def revertRoots (id : Id) : List Root → State → State × List Root
  | [], s => (s, [])
  | r :: rs, s =>
    let (s, ds) := revertRoot id r.addr [] r.detours s
    let (s, rs) := revertRoots id rs s
    (s, { r with detours := ds } :: rs)

/-- `ulp_revert_patch`, lib/ulp.c:1147-1159. -/
def revertPatch (s : State) (id : Id) : State × Err :=
  let s := { s with univ := s.univ + 1 }
  let (s, rs) := revertRoots id s.roots s
  let (s, found) := stateRemove { s with roots := rs } id
  (s, if found then 0 else ESTATE)

/-- `load_patch`, lib/ulp.c:474-532, after parsing (`parse_metadata`, :440-465). -/
def loadPatch (w : World) (m : Meta) (s : State) : State × Err :=
  let e := if m.type = 2 then 0 else sanity w m s
  if e ≠ 0 then (s, e)
  else if m.type ≠ 2 ∧ !w.dlopenOk then (s, EDLOPEN)
  else if m.type = 1 then
    match stateUpdate w m s with
    | none => (s, ESTATE)
    | some s => match applyAllUnits w m s with
      | (s, e) => if e ≠ 0 then ({ s with err := EUNKNOWN }, e) else (s, 0)
  else if m.type = 2 then
    let e := canRevert s m.id
    if e ≠ 0 then (s, e) else revertPatch s m.id
  else if m.type = 0 then (s, ENOMETA) else (s, EUNKNOWN)

/-- The checks at the start of `__ulp_apply_patch` and `__ulp_revert_patches_from_lib`,
lib/ulp.c:152-167,186-201: `some e` if the request is refused with `e`. -/
def gate (w : World) (s : State) : State × Option Err :=
  if s.err ≠ ENONE then (s, some s.err)
  else
    let (l, r) := InsnQueue.ensureEmptiness ⟨s.q, s.err⟩
    let s := { s with q := l.q, err := l.err }
    if r ≠ 0 then (s, some s.err)
    else if w.busy then (s, some EAGAIN)
    else (s, none)

/-- `__ulp_apply_patch`, lib/ulp.c:181-212.  `m` is the result of parsing the metadata buffer. -/
def applyPatch (w : World) (m : Except Err Meta) (s : State) : State × Err :=
  match gate w s with
  | (s, some e) => (s, e)
  | (s, none) => match m with
    | .error e => (s, e)
    | .ok m => loadPatch w m s

/-- The loop of `revert_all_patches_from_lib`, lib/ulp.c:113-127, over the nodes of the list as it
was at the start; `none` if it has not ended after `fuel` iterations.  Note the `continue` of
line 119, which does not advance. -/
def revertAllLoop (base : Str) : (fuel : Nat) → List Applied → Err → State → Option (State × Err)
  | _, [], ret, s => some (s, ret)
  | 0, _ :: _, _, _ => none
  | fuel + 1, p :: rest, ret, s =>
    if base.take pathLen = p.lib.take pathLen then
      let e := canRevert s p.id
      if e ≠ 0 then revertAllLoop base fuel (p :: rest) e s
      else match revertPatch s p.id with
        | (s, e) => if e ≠ 0 then some (s, e) else revertAllLoop base fuel rest e s
    else revertAllLoop base fuel rest ret s

/-- `__ulp_revert_patches_from_lib`, lib/ulp.c:97-178. -/
def revertAll (fuel : Nat) (w : World) (lib : Str) (s : State) : Option (State × Err) :=
  match gate w s with
  | (s, some e) => some (s, e)
  | (s, none) =>
    if pathLen ≤ basenameOff lib then some (s, EOVERFLOW)
    else (revertAllLoop (getBasename lib) fuel s.patches ENOTARGETLIB s).map fun (s, ret) =>
      if ret = ENOTARGETLIB ∧ w.libBase (getBasename lib) ≠ 0xff then (s, ENOPATCH) else (s, ret)

/-- `__ulp_check_applied_patch`, lib/ulp.c:214-228. -/
def checkApplied (s : State) (id : Id) : Nat :=
  if s.err ≠ ENONE then 0 else if (getApplied s id).isSome then 1 else 0

/-- `ulp_enable_or_disable_patching`, lib/ulp.c:1276-1298. -/
def toggle (s : State) : State × Err :=
  let s := if s.err = ENONE then { s with err := EUSRBLOCKED }
    else if s.err = EUSRBLOCKED then { s with err := ENONE } else s
  (s, s.err)

/-- The tool executing libpulp's queue after a request (tools/introspection.c:1735-1741,1795-1801),
all of its writes succeeding. -/
def settle (s : State) : State :=
  let p := InsnQueue.applyEffects ⟨s.mem, s.q⟩ (InsnQueue.toolRun s.q (fun _ => none)).1
  { s with mem := p.mem, q := p.q }

/-- What can be asked of a process. -/
inductive Request where
  | apply (w : World) (m : Except Err Meta)
  | revertAll (w : World) (lib : Str)
  | check (id : Id)
  | toggle

/-- A request as the user sees it: libpulp's part, then the tool executing the queue.  The answer is
`none` if libpulp does not return within `fuel` iterations of its loop. -/
def serve (fuel : Nat) (s : State) : Request → Option (State × Nat)
  | .apply w m => let (s, e) := applyPatch w m s; some (settle s, e)
  | .revertAll w lib => (revertAll fuel w lib s).map fun (s, e) => (settle s, e)
  | .check id => some (s, checkApplied s id)
  | .toggle => some (toggle s)

/-- A history of requests, with the answers. -/
def serveAll (fuel : Nat) : State → List Request → Option (State × List Nat)
  | s, [] => some (s, [])
  | s, r :: rs => match serve fuel s r with
    | none => none
    | some (s, a) => (serveAll fuel s rs).map fun (s, as) => (s, a :: as)

end Verif.Runtime
