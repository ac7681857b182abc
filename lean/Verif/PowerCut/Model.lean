import Verif.Power.Model
import Verif.Cut.Model

/-!
`__ulp_apply_patch` on POWER in small steps, so that it can be left at any of them, as in `Verif.Cut`, whose process, positions
and events are used.  The steps that differ are those that replace a function (`ulp_patch_addr`,
lib/arch/powerpc64le/patch.c:209-224) and those that write a reference to a thread-local variable (lib/ulp.c:719-750 with
`TLS_DTV_OFFSET`, include/arch/powerpc64le/arch_common.h:5).  `tm` are the instructions of the trampoline.
-/

namespace Verif.Power.Cut

open Verif.Runtime
open Verif.Cut (Md Proc Env Item items fill Pc fatal Event)

/-- The next step of the routine (lib/ulp.c:182-228, 434-512, 634-753, 1145-1259), run with the metadata buffer `buf` (what
parsing it gives).

Simplifications: the writes of one `ulp_patch_addr` are queued in one step; each function replaced takes one step of a
revert; a buffer that cannot be parsed is given up at once. -/
def step (tm : List UInt8) (v : Env) (buf : Except Err Meta) : Proc × Pc → Proc × Pc
  | (p, .gate) =>
    match Runtime.gate (v.entry p) p.st with
    | (s, some e) => ({ p with st := s }, .ret e)
    | (s, none) => ({ p with st := s }, if p.ref.isSome then .dispatch else .alloc)
  | (p, .alloc) =>
    ({ p with ref := some .zero }, match buf with
      | .error e => .unload e
      | .ok m => .read (items m))
  | (p, .read (i :: is)) =>
    match p.ref with
    | none => (p, .undefined)
    | some md => ({ p with ref := some (fill md i) }, .read is)
  | (p, .read []) =>
    match p.ref with
    | none => (p, .undefined)
    | some md => (p, if md.mt.type = 2 then .clean else .sanity)
  | (p, .sanity) =>
    match p.ref with
    | none => (p, .undefined)
    | some md =>
      let e := Runtime.sanity v.w md.mt p.st
      (p, if e ≠ 0 then .unload e else .dlopen)
  | (p, .dlopen) =>
    match p.ref with
    | none => (p, .undefined)
    | some md =>
      if v.w.dlopenOk then ({ p with ref := some { md with opened := true } }, .clean) else (p, .unload EDLOPEN)
  | (p, .clean) => (p, .dispatch)
  | (p, .dispatch) =>
    match p.ref with
    | none => (p, .undefined)
    | some md =>
      (p, if md.freed then .undefined
        else if md.mt.type = 1 then (if md.named then .record md.mt.units [] else .undefined)
        else if md.mt.type = 2 then .mayRevert
        else if md.mt.type = 0 then .unload ENOMETA
        else .unload EUNKNOWN)
  | (p, .record (u :: us) done) =>
    match p.ref with
    | none => (p, .undefined)
    | some md =>
      let old := v.w.oldSym (getBasename md.mt.lib) u.oldName u.oldAddr
      let new := (v.view md).newSym u.newName
      (p, if old = 0 then .unload ESTATE else if new = 0 then .unload ESTATE else .record us (done ++ [(old, new)]))
  | (p, .record [] done) =>
    match p.ref with
    | none => (p, .undefined)
    | some md =>
      ({ p with st := { p.st with patches :=
          { id := md.mt.id, lib := (getBasename md.mt.lib).take pathLen, container := md.mt.soName.take pathLen,
            deps := md.mt.deps.reverse, units := done } :: p.st.patches } }, .count)
  | (p, .count) =>
    match p.ref with
    | none => (p, .undefined)
    | some md => ({ p with st := { p.st with univ := p.st.univ + 1 } }, .detour md.mt.units)
  | (p, .detour (u :: us)) =>
    match p.ref with
    | none => (p, .undefined)
    | some md =>
      let old := v.w.oldSym (getBasename md.mt.lib) u.oldName u.oldAddr
      let new := (v.view md).newSym u.newName
      if old = 0 then fatal p ENOOLDFUNC
      else if new = 0 then fatal p ENONEWFUNC
      else ({ p with st := addDetour p.st old { univ := p.st.univ, target := new, id := md.mt.id, active := true } },
        .entry old new us)
  | (p, .detour []) => (p, .base)
  | (p, .entry old new us) =>
    match patchAddr tm p.st old new true with
    | (s, e) => if e > 0 then fatal { p with st := s } e else ({ p with st := s }, .detour us)
  | (p, .base) =>
    match p.ref with
    | none => (p, .undefined)
    | some md =>
      if v.w.libBase (getBasename md.mt.lib) = 0xff then fatal p ENOADDRESS
      -- `dlinfo(NULL, RTLD_DI_LINKMAP, &map_ptr)` stores the handle, NULL, which is dereferenced at lib/ulp.c:714
      else if !md.opened then (p, .undefined)
      else match v.w.soBase with
        | none => fatal p EUNKNOWN
        | some so => if so = 0 then fatal p ENOADDRESS else (p, .refs so md.mt.refs)
  | (p, .refs so (r :: rs)) =>
    match p.ref with
    | none => (p, .undefined)
    | some md =>
      let addr := if r.patchOff = 0 then (v.view md).newSym r.refName else (so + r.patchOff) % 2 ^ 64
      if r.patchOff = 0 ∧ addr = 0 then fatal p ENONEWFUNC
      else
        let bytes := if r.tls then le 8 (v.w.tlsIdx (getBasename md.mt.lib)) ++ le 8 (r.targetOff + (2 ^ 64 - tlsDtvOffset))
          else le 8 (v.w.libBase (getBasename md.mt.lib) + r.targetOff)
        ({ p with st := memwrite p.st addr bytes }, .refs so rs)
  | (p, .refs _ []) => (p, .unload 0)
  | (p, .mayRevert) =>
    match p.ref with
    | none => (p, .undefined)
    | some md =>
      let e := canRevert p.st md.mt.id
      (p, if e ≠ 0 then .unload e else .bump)
  | (p, .bump) => ({ p with st := { p.st with univ := p.st.univ + 1 } }, .undo [] p.st.roots)
  | (p, .undo done (r :: rs)) =>
    match p.ref with
    | none => (p, .undefined)
    | some md =>
      let (s, ds) := revertRoot tm md.mt.id r.addr [] r.detours p.st
      let r := { r with detours := ds }
      ({ p with st := { s with roots := done ++ r :: rs } }, .undo (done ++ [r]) rs)
  | (p, .undo _ []) => (p, .remove)
  | (p, .remove) =>
    match p.ref with
    | none => (p, .undefined)
    | some md =>
      let (s, found) := stateRemove p.st md.mt.id
      ({ p with st := s }, .unload (if found then 0 else ESTATE))
  | (p, .unload e) => ({ p with ref := p.ref.map fun md => { md with freed := true } }, .drop e)
  | (p, .drop e) => ({ p with ref := none }, .ret e)
  | (p, .ret e) => (p, .ret e)
  | (p, .undefined) => (p, .undefined)

/-- The first `n` steps of the routine, `__ulp_apply_patch`, lib/ulp.c:182-228. -/
def steps (tm : List UInt8) (v : Env) (buf : Except Err Meta) : Nat → Proc × Pc → Proc × Pc
  | 0, c => c
  | n + 1, c => steps tm v buf n (step tm v buf c)

/-- What the process is left as when the thread gets its registers back after `k` steps, tools/introspection.c:1842-1872. -/
def leave (tm : List UInt8) (v : Env) (buf : Except Err Meta) (k : Nat) (inside flush : Bool) (p : Proc) : Proc :=
  let q := (steps tm v buf k (p, .gate)).1
  { q with st := if flush then settle q.st else q.st, stuck := q.stuck || inside }

/-- What libpulp's state and memory are left as when the thread gets its registers back inside `ulp_patch_addr`, with the stub
queued and the branch to it not (lib/arch/powerpc64le/patch.c:209-224), and the tool executes the queue. -/
def leaveBetween (tm : List UInt8) (v : Env) (buf : Except Err Meta) (k : Nat) (p : Proc) : Option State :=
  match steps tm v buf k (p, .gate) with
  | (q, .entry old new _) => some (settle (memwrite q.st (old - Ppc.preLen) (Ppc.prologue tm new)))
  | _ => none

/-- The possible effects of an event, with the answer if there is one, lib/ulp.c:97-228. -/
inductive Happens (tm : List UInt8) : Proc → Event → Option Nat → Proc → Prop
  | whole (p v buf n q e) (h : steps tm v buf n (p, .gate) = (q, .ret e)) :
      Happens tm p (.whole v buf) (some e) { q with st := settle q.st }
  | cut (p v buf k inside flush) (h : inside = true → (steps tm v buf k (p, .gate)).2.calls = true)
      (hu : (steps tm v buf k (p, .gate)).2 ≠ .undefined) :
      Happens tm p (.cut v buf k inside flush) none (leave tm v buf k inside flush p)
  | revertAll (p w lib fuel s e) (h : Power.revertAll tm fuel { w with busy := w.busy || p.stuck } lib p.st = some (s, e)) :
      Happens tm p (.revertAll w lib) (some e) { p with st := settle s }
  | toggle (p) : Happens tm p .toggle (some (Runtime.toggle p.st).2) { p with st := (Runtime.toggle p.st).1 }

/-- A history of events (as `Happens`, lib/ulp.c:97-228), with the answers. -/
inductive Run (tm : List UInt8) : Proc → List Event → List (Option Nat) → Proc → Prop
  | nil (p) : Run tm p [] [] p
  | cons {p q r e es a as} : Happens tm p e a q → Run tm q es as r → Run tm p (e :: es) (a :: as) r

end Verif.Power.Cut
