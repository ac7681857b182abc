import Verif.Runtime.Model
import Verif.Ppc.Model

/-!
Model of libpulp inside the patched process on POWER: lib/ulp.c together with
lib/arch/powerpc64le/patch.c, and the tool executing libpulp's instruction queue after each request.
Everything in lib/ulp.c that does not depend on the architecture (state, bookkeeping, checks, gate, toggle)
is taken from `Verif.Runtime`; what reaches the entry of a function or `TLS_DTV_OFFSET` is given here.
`t` always are the 44 bytes of instructions of `ulp_prologue` as they are in the process
(lib/arch/powerpc64le/ulp_prologue.S, between `ulp_prologue` and `ulp_prologue_new_function_addr`).
-/

namespace Verif.Power

open Verif.Runtime

/-- Writes queued one after the other: calls of `memwrite`, lib/ulp.c:77-86, whose results are ignored. -/
def memwrites : State → List (Nat × List UInt8) → State
  | s, [] => s
  | s, w :: ws => memwrites (memwrite s w.1 w.2) ws

/-- `ulp_patch_addr` queueing its writes, lib/arch/powerpc64le/patch.c:209-224. -/
def patchAddr (t : List UInt8) (s : State) (old new : Nat) (enable : Bool) : State × Err :=
  let p := Ppc.patchAddr t s.mem old new enable
  (memwrites s p.2, p.1)

/-- The unit loop of `ulp_apply_all_units`, lib/ulp.c:647-679. -/
def applyUnits (t : List UInt8) (w : World) (lib : Str) (id : Id) : List UnitM → State → State × Err
  | [], s => (s, 0)
  | u :: us, s =>
    let old := w.oldSym (getBasename lib) u.oldName u.oldAddr
    if old = 0 then (s, ENOOLDFUNC)
    else
      let new := w.newSym u.newName
      if new = 0 then (s, ENONEWFUNC)
      else
        let s := addDetour s old { univ := s.univ, target := new, id := id, active := true }
        match patchAddr t s old new true with
        | (s, e) => if e > 0 then (s, e) else applyUnits t w lib id us s

/-- `TLS_DTV_OFFSET`, include/arch/powerpc64le/arch_common.h:5. -/
def tlsDtvOffset : Nat := 0x8000

/-- The reference loop of `ulp_apply_all_units`, lib/ulp.c:719-750; the offset of a thread-local variable is
written less `TLS_DTV_OFFSET`, in 64-bit arithmetic. -/
def applyRefs (w : World) (targetBase tlsIdx soBase : Nat) : List RefM → State → State × Err
  | [], s => (s, 0)
  | r :: rs, s =>
    let addr := if r.patchOff = 0 then w.newSym r.refName else (soBase + r.patchOff) % 2 ^ 64
    if r.patchOff = 0 ∧ addr = 0 then (s, ENONEWFUNC)
    else
      let bytes := if r.tls then le 8 tlsIdx ++ le 8 (r.targetOff + (2 ^ 64 - tlsDtvOffset))
        else le 8 (targetBase + r.targetOff)
      applyRefs w targetBase tlsIdx soBase rs (memwrite s addr bytes)

/-- `ulp_apply_all_units`, lib/ulp.c:634-753. -/
def applyAllUnits (t : List UInt8) (w : World) (m : Meta) (s : State) : State × Err :=
  match applyUnits t w m.lib m.id m.units { s with univ := s.univ + 1 } with
  | (s, e) =>
    if e ≠ 0 then (s, e)
    else if w.libBase (getBasename m.lib) = 0xff then (s, ENOADDRESS)
    else match w.soBase with
      | none => (s, EUNKNOWN)
      | some soBase =>
        if soBase = 0 then (s, ENOADDRESS)
        else applyRefs w (w.libBase (getBasename m.lib)) (w.tlsIdx (getBasename m.lib)) soBase m.refs s

/-- Inner loop of `ulp_revert_all_units` on one function, lib/ulp.c:1232-1256.  `done` are the
detours already visited (newest first). -/
def revertRoot (t : List UInt8) (id : Id) (addr : Nat) (done : List Detour) :
    List Detour → State → State × List Detour
  | [], s => (s, done)
  | d :: rest, s =>
    if d.id = id then
      let d := { d with active := false }
      let s := match (done ++ d :: rest).find? (fun d => d.active) with
        | none => (patchAddr t s addr 0 false).1
        | some a => (patchAddr t s addr a.target true).1
      revertRoot t id addr (done ++ [d]) rest s
    else revertRoot t id addr (done ++ [d]) rest s

/-- `ulp_revert_all_units`, lib/ulp.c:1224-1259. -/
def revertRoots (t : List UInt8) (id : Id) : List Root → State → State × List Root
  | [], s => (s, [])
  | r :: rs, s =>
    let (s, ds) := revertRoot t id r.addr [] r.detours s
    let (s, rs) := revertRoots t id rs s
    (s, { r with detours := ds } :: rs)

/-- `ulp_revert_patch`, lib/ulp.c:1147-1159. -/
def revertPatch (t : List UInt8) (s : State) (id : Id) : State × Err :=
  let s := { s with univ := s.univ + 1 }
  let (s, rs) := revertRoots t id s.roots s
  let (s, found) := stateRemove { s with roots := rs } id
  (s, if found then 0 else ESTATE)

/-- `load_patch`, lib/ulp.c:474-532, after parsing (`parse_metadata`, :440-465). -/
def loadPatch (t : List UInt8) (w : World) (m : Meta) (s : State) : State × Err :=
  let e := if m.type = 2 then 0 else sanity w m s
  if e ≠ 0 then (s, e)
  else if m.type ≠ 2 ∧ !w.dlopenOk then (s, EDLOPEN)
  else if m.type = 1 then
    match stateUpdate w m s with
    | none => (s, ESTATE)
    | some s => match applyAllUnits t w m s with
      | (s, e) => if e ≠ 0 then ({ s with err := EUNKNOWN }, e) else (s, 0)
  else if m.type = 2 then
    let e := canRevert s m.id
    if e ≠ 0 then (s, e) else revertPatch t s m.id
  else if m.type = 0 then (s, ENOMETA) else (s, EUNKNOWN)

/-- `__ulp_apply_patch`, lib/ulp.c:181-212.  `m` is the result of parsing the metadata buffer. -/
def applyPatch (t : List UInt8) (w : World) (m : Except Err Meta) (s : State) : State × Err :=
  match gate w s with
  | (s, some e) => (s, e)
  | (s, none) => match m with
    | .error e => (s, e)
    | .ok m => loadPatch t w m s

/-- The loop of `revert_all_patches_from_lib`, lib/ulp.c:113-127, over the nodes of the list as it
was at the start; `none` if it has not ended after `fuel` iterations.  Note the `continue` of
line 119, which does not advance. -/
def revertAllLoop (t : List UInt8) (base : Str) :
    (fuel : Nat) → List Applied → Err → State → Option (State × Err)
  | _, [], ret, s => some (s, ret)
  | 0, _ :: _, _, _ => none
  | fuel + 1, p :: rest, ret, s =>
    if base.take pathLen = p.lib.take pathLen then
      let e := canRevert s p.id
      if e ≠ 0 then revertAllLoop t base fuel (p :: rest) e s
      else match revertPatch t s p.id with
        | (s, e) => if e ≠ 0 then some (s, e) else revertAllLoop t base fuel rest e s
    else revertAllLoop t base fuel rest ret s

/-- `__ulp_revert_patches_from_lib`, lib/ulp.c:97-178. -/
def revertAll (t : List UInt8) (fuel : Nat) (w : World) (lib : Str) (s : State) : Option (State × Err) :=
  match gate w s with
  | (s, some e) => some (s, e)
  | (s, none) =>
    if pathLen ≤ basenameOff lib then some (s, EOVERFLOW)
    else (revertAllLoop t (getBasename lib) fuel s.patches ENOTARGETLIB s).map fun (s, ret) =>
      if ret = ENOTARGETLIB ∧ w.libBase (getBasename lib) ≠ 0xff then (s, ENOPATCH) else (s, ret)

/-- A request as the user sees it: libpulp's part (lib/ulp.c:97-228, 1276-1298), then the tool executing the
queue (tools/introspection.c:1735-1741,1795-1801). The answer is `none` if libpulp does not return within
`fuel` iterations of its loop. -/
def serve (t : List UInt8) (fuel : Nat) (s : State) : Request → Option (State × Nat)
  | .apply w m => let (s, e) := applyPatch t w m s; some (settle s, e)
  | .revertAll w lib => (revertAll t fuel w lib s).map fun (s, e) => (settle s, e)
  | .check id => some (s, checkApplied s id)
  | .toggle => some (toggle s)

/-- A history of requests, with the answers. -/
def serveAll (t : List UInt8) (fuel : Nat) : State → List Request → Option (State × List Nat)
  | s, [] => some (s, [])
  | s, r :: rs => match serve t fuel s r with
    | none => none
    | some (s, a) => (serveAll t fuel s rs).map fun (s, as) => (s, a :: as)

end Verif.Power
