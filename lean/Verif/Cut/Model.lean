import Verif.Runtime.Model

/-!
Model of `__ulp_apply_patch` in small steps, so that it can be left at any of them.

The tool runs the routine in a borrowed thread and takes any stop of the thread for its end
(tools/ptrace.c:574-612, `Verif.Redirect.C71_premature`).  A signal that reaches the process meanwhile thus makes it
put back the registers of the thread (tools/introspection.c:1842-1872) while the routine is half way through.  What
libpulp had done until then stays, in particular `__ulp_metadata_ref` (lib/ulp.c:57), and what the thread held of the
allocator and the loader stays held, as nothing ever executes the rest of the routine.
-/

namespace Verif.Cut

open Verif.Runtime

/-- The structure `__ulp_metadata_ref` points to, include/ulp_common.h:78-103: what has been read into it so far, whether
`objs->name` and `so_handler` have been set, and whether `free_metadata` has released its parts. -/
structure Md where
  mt : Meta
  named : Bool
  opened : Bool
  freed : Bool

/-- As `calloc` returns it, lib/ulp.c:321. -/
def Md.zero : Md := ⟨⟨0, List.replicate 32 0, [], [], [], [], []⟩, false, false, false⟩

/-- The process: libpulp's state and memory; `__ulp_metadata_ref`; whether a thread was taken away from inside a function
of the allocator or the loader, so that `flag` (lib/interpose.c:65) or a lock of the loader (lib/interpose.c:84-85) stays
taken. -/
structure Proc where
  st : State
  ref : Option Md
  stuck : Bool

/-- The answers of the rest of the process, and what `dlsym(NULL, name)`, that is `RTLD_DEFAULT`, finds. -/
structure Env where
  w : World
  global : Str → Nat

/-- The answers while a request is served with the metadata `md`: without a handle, `load_so_symbol`
(lib/ulp.c:262-275) looks into the global scope. -/
def Env.view (v : Env) (md : Md) : World := { v.w with newSym := if md.opened then v.w.newSym else v.global }

/-- The answers to the gate: whoever was taken away from inside a function keeps the process busy. -/
def Env.entry (v : Env) (p : Proc) : World := { v.w with busy := v.w.busy || p.stuck }

/-- What `parse_metadata_from_mem` stores, in order, common/common.c:263-528. -/
inductive Item where
  | type (t : Nat)
  | id (i : Id)
  | container (s : Str)
  | library (s : Str)
  | unit (u : UnitM)
  | dep (d : Id)
  | ref (r : RefM)

/-- A revert has no units, dependencies and references, common/common.c:341-347. -/
def items (m : Meta) : List Item :=
  [.type m.type, .id m.id, .container m.soName, .library m.lib] ++
    if m.type = 2 then [] else m.units.map .unit ++ m.deps.map .dep ++ m.refs.map .ref

/-- Store one item; units, dependencies and references are linked at the end of their lists when they are complete. -/
def fill (md : Md) : Item → Md
  | .type t => { md with mt := { md.mt with type := t } }
  | .id i => { md with mt := { md.mt with id := i } }
  | .container s => { md with mt := { md.mt with soName := s } }
  | .library s => { md with mt := { md.mt with lib := s }, named := true }
  | .unit u => { md with mt := { md.mt with units := md.mt.units ++ [u] } }
  | .dep d => { md with mt := { md.mt with deps := md.mt.deps ++ [d] } }
  | .ref r => { md with mt := { md.mt with refs := md.mt.refs ++ [r] } }

/-- Where the thread is.  -/
inductive Pc where
  /-- At the start, lib/ulp.c:182. -/
  | gate
  /-- Past the checks, in `load_metadata`, lib/ulp.c:313-327. -/
  | alloc
  /-- In `parse_metadata_from_mem` with these items to be read. -/
  | read (todo : List Item)
  /-- In `check_patch_sanity`, lib/ulp.c:455. -/
  | sanity
  /-- In `load_so_handlers`, lib/ulp.c:459. -/
  | dlopen
  /-- At `metadata_clean`, lib/ulp.c:464. -/
  | clean
  /-- At the `switch` of `load_patch`, lib/ulp.c:486. -/
  | dispatch
  /-- In the loop over the units of `ulp_state_update`, lib/ulp.c:758-836: to do, and done. -/
  | record (todo : List UnitM) (done : List (Nat × Nat))
  /-- The patch is in the list; at the start of `ulp_apply_all_units`, lib/ulp.c:645. -/
  | count
  /-- In its loop over the units, lib/ulp.c:649. -/
  | detour (todo : List UnitM)
  /-- At the call of `ulp_patch_addr`, lib/ulp.c:674. -/
  | entry (old new : Nat) (todo : List UnitM)
  /-- After the loop over the units, lib/ulp.c:693-717. -/
  | base
  /-- In the loop over the references, lib/ulp.c:720-750; the livepatch is loaded at `so`. -/
  | refs (so : Nat) (todo : List RefM)
  /-- In `ulp_can_revert_patch`, lib/ulp.c:504. -/
  | mayRevert
  /-- At the start of `ulp_revert_patch`, lib/ulp.c:1149. -/
  | bump
  /-- In `ulp_revert_all_units`, lib/ulp.c:1224-1259: functions done, and to do. -/
  | undo (done todo : List Root)
  /-- In `ulp_state_remove`, lib/ulp.c:1172. -/
  | remove
  /-- In `unload_metadata`, lib/ulp.c:306-311, before and after `free_metadata`; the result will be `e`. -/
  | unload (e : Err)
  | drop (e : Err)
  /-- Returned; the thread goes on to the trap. -/
  | ret (e : Err)
  /-- A null or dangling pointer was used. -/
  | undefined

/-- A failure after the patch was put into the list, lib/ulp.c:496-500. -/
def fatal (p : Proc) (e : Err) : Proc × Pc := ({ p with st := { p.st with err := EUNKNOWN } }, .unload e)

/-- The next step of the routine, run with the metadata buffer `buf` (what parsing it gives).

Simplifications: each function replaced takes one step of a revert; a buffer that cannot be parsed is given up at
once. -/
def step (v : Env) (buf : Except Err Meta) : Proc × Pc → Proc × Pc
  | (p, .gate) =>
    match Runtime.gate (v.entry p) p.st with
    | (s, some e) => ({ p with st := s }, .ret e)
    | (s, none) => ({ p with st := s }, if p.ref.isSome then .dispatch else .alloc)
  | (p, .alloc) =>
    ({ p with ref := some .zero }, match buf with
      | .error e => .unload e
      | .ok m => .read (items m))
  | (p, .read (i :: is)) =>
    match p.ref with
    | none => (p, .undefined)
    | some md => ({ p with ref := some (fill md i) }, .read is)
  | (p, .read []) =>
    match p.ref with
    | none => (p, .undefined)
    | some md => (p, if md.mt.type = 2 then .clean else .sanity)
  | (p, .sanity) =>
    match p.ref with
    | none => (p, .undefined)
    | some md =>
      let e := Runtime.sanity v.w md.mt p.st
      (p, if e ≠ 0 then .unload e else .dlopen)
  | (p, .dlopen) =>
    match p.ref with
    | none => (p, .undefined)
    | some md =>
      if v.w.dlopenOk then ({ p with ref := some { md with opened := true } }, .clean) else (p, .unload EDLOPEN)
  | (p, .clean) => (p, .dispatch)
  | (p, .dispatch) =>
    match p.ref with
    | none => (p, .undefined)
    | some md =>
      (p, if md.freed then .undefined
        else if md.mt.type = 1 then (if md.named then .record md.mt.units [] else .undefined)
        else if md.mt.type = 2 then .mayRevert
        else if md.mt.type = 0 then .unload ENOMETA
        else .unload EUNKNOWN)
  | (p, .record (u :: us) done) =>
    match p.ref with
    | none => (p, .undefined)
    | some md =>
      let old := v.w.oldSym (getBasename md.mt.lib) u.oldName u.oldAddr
      let new := (v.view md).newSym u.newName
      (p, if old = 0 then .unload ESTATE else if new = 0 then .unload ESTATE else .record us (done ++ [(old, new)]))
  | (p, .record [] done) =>
    match p.ref with
    | none => (p, .undefined)
    | some md =>
      ({ p with st := { p.st with patches :=
          { id := md.mt.id, lib := (getBasename md.mt.lib).take pathLen, container := md.mt.soName.take pathLen,
            deps := md.mt.deps.reverse, units := done } :: p.st.patches } }, .count)
  | (p, .count) =>
    match p.ref with
    | none => (p, .undefined)
    | some md => ({ p with st := { p.st with univ := p.st.univ + 1 } }, .detour md.mt.units)
  | (p, .detour (u :: us)) =>
    match p.ref with
    | none => (p, .undefined)
    | some md =>
      let old := v.w.oldSym (getBasename md.mt.lib) u.oldName u.oldAddr
      let new := (v.view md).newSym u.newName
      if old = 0 then fatal p ENOOLDFUNC
      else if new = 0 then fatal p ENONEWFUNC
      else ({ p with st := addDetour p.st old { univ := p.st.univ, target := new, id := md.mt.id, active := true } },
        .entry old new us)
  | (p, .detour []) => (p, .base)
  | (p, .entry old new us) =>
    match patchAddr p.st old new true with
    | (s, e) => if e > 0 then fatal { p with st := s } e else ({ p with st := s }, .detour us)
  | (p, .base) =>
    match p.ref with
    | none => (p, .undefined)
    | some md =>
      if v.w.libBase (getBasename md.mt.lib) = 0xff then fatal p ENOADDRESS
      -- `dlinfo(NULL, RTLD_DI_LINKMAP, &map_ptr)` stores the handle, NULL, which is dereferenced at lib/ulp.c:714
      else if !md.opened then (p, .undefined)
      else match v.w.soBase with
        | none => fatal p EUNKNOWN
        | some so => if so = 0 then fatal p ENOADDRESS else (p, .refs so md.mt.refs)
  | (p, .refs so (r :: rs)) =>
    match p.ref with
    | none => (p, .undefined)
    | some md =>
      let addr := if r.patchOff = 0 then (v.view md).newSym r.refName else (so + r.patchOff) % 2 ^ 64
      if r.patchOff = 0 ∧ addr = 0 then fatal p ENONEWFUNC
      else
        let bytes := if r.tls then le 8 (v.w.tlsIdx (getBasename md.mt.lib)) ++ le 8 r.targetOff
          else le 8 (v.w.libBase (getBasename md.mt.lib) + r.targetOff)
        ({ p with st := memwrite p.st addr bytes }, .refs so rs)
  | (p, .refs _ []) => (p, .unload 0)
  | (p, .mayRevert) =>
    match p.ref with
    | none => (p, .undefined)
    | some md =>
      let e := canRevert p.st md.mt.id
      (p, if e ≠ 0 then .unload e else .bump)
  | (p, .bump) => ({ p with st := { p.st with univ := p.st.univ + 1 } }, .undo [] p.st.roots)
  | (p, .undo done (r :: rs)) =>
    match p.ref with
    | none => (p, .undefined)
    | some md =>
      let (s, ds) := revertRoot md.mt.id r.addr [] r.detours p.st
      let r := { r with detours := ds }
      ({ p with st := { s with roots := done ++ r :: rs } }, .undo (done ++ [r]) rs)
  | (p, .undo _ []) => (p, .remove)
  | (p, .remove) =>
    match p.ref with
    | none => (p, .undefined)
    | some md =>
      let (s, found) := stateRemove p.st md.mt.id
      ({ p with st := s }, .unload (if found then 0 else ESTATE))
  | (p, .unload e) => ({ p with ref := p.ref.map fun md => { md with freed := true } }, .drop e)
  | (p, .drop e) => ({ p with ref := none }, .ret e)
  | (p, .ret e) => (p, .ret e)
  | (p, .undefined) => (p, .undefined)

/-- The first `n` steps of the routine. -/
def steps (v : Env) (buf : Except Err Meta) : Nat → Proc × Pc → Proc × Pc
  | 0, c => c
  | n + 1, c => steps v buf n (step v buf c)

/-- The steps with calls of the allocator or the loader, or with the lock that keeps both away
(`__ulp_asunsafe_trylock`, lib/ulp.c:199-201). -/
def Pc.calls : Pc → Bool
  | .gate | .alloc | .read (_ :: _) | .sanity | .dlopen | .record _ _ | .detour (_ :: _) | .base | .refs _ (_ :: _)
  | .remove | .unload _ => true
  | _ => false

/-- What may happen to the process.  In the end of each request the tool executes what libpulp queued, unless it thinks
that the routine was not run (tools/introspection.c:1718-1741). -/
inductive Event where
  /-- The routine runs to its end. -/
  | whole (v : Env) (buf : Except Err Meta)
  /-- The routine is left after `k` steps, `inside` a function of the allocator or the loader or not; `flush`: the tool
  executes the queue. -/
  | cut (v : Env) (buf : Except Err Meta) (k : Nat) (inside flush : Bool)
  /-- Revert all patches of a library. -/
  | revertAll (w : World) (lib : Str)
  /-- Disable or enable live patching. -/
  | toggle

/-- What the process is left as when the thread gets its registers back after `k` steps. -/
def leave (v : Env) (buf : Except Err Meta) (k : Nat) (inside flush : Bool) (p : Proc) : Proc :=
  let q := (steps v buf k (p, .gate)).1
  { q with st := if flush then settle q.st else q.st, stuck := q.stuck || inside }

/-- The possible effects of an event, with the answer if there is one. -/
inductive Happens : Proc → Event → Option Nat → Proc → Prop
  | whole (p v buf n q e) (h : steps v buf n (p, .gate) = (q, .ret e)) :
      Happens p (.whole v buf) (some e) { q with st := settle q.st }
  | cut (p v buf k inside flush) (h : inside = true → (steps v buf k (p, .gate)).2.calls = true)
      (hu : (steps v buf k (p, .gate)).2 ≠ .undefined) :
      Happens p (.cut v buf k inside flush) none (leave v buf k inside flush p)
  | revertAll (p w lib fuel s e) (h : Runtime.revertAll fuel { w with busy := w.busy || p.stuck } lib p.st = some (s, e)) :
      Happens p (.revertAll w lib) (some e) { p with st := settle s }
  | toggle (p) : Happens p .toggle (some (Runtime.toggle p.st).2) { p with st := (Runtime.toggle p.st).1 }

/-- A history of events, with the answers. -/
inductive Run : Proc → List Event → List (Option Nat) → Proc → Prop
  | nil (p) : Run p [] [] p
  | cons {p q r e es a as} : Happens p e a q → Run q es as r → Run p (e :: es) (a :: as) r

end Verif.Cut
