import Verif.Heap.Model

/-!
Model of the memory in which the tools keep what they know about processes: `struct ulp_process` and what hangs on it
(tools/introspection.h:45-131), from `insert_target_process` (tools/patches.c) to `release_ulp_process` (tools/introspection.c).

Only allocations, releases and uses through pointers that may have become stale are modelled; what the other process and the system
answer is given from outside (`Answers`, `Entry`) and may be anything.  Allocations succeed.  Buffers of `getline` and of the
directory functions, open files, the metadata of the live patch (topic Heap) and its buffer (topic Check) are left out.
-/

namespace Verif.Records

open Verif.Heap (Heap Blk)

/-- Code that works on the heap; `none`: undefined behaviour. -/
abbrev H := StateT Heap Option

/-- `malloc`, `calloc`, `strdup` -/
def alloc : H Blk := fun h => some (h.next, ⟨h.next :: h.live, h.next + 1⟩)

/-- `free` -/
def free (b : Blk) : H Unit := fun h =>
  match h.free b with
  | none => none
  | some h => some ((), h)

/-- An access through a pointer. -/
def touch (b : Blk) : H Unit := fun h => if b ∈ h.live then some ((), h) else none

/-- An access through a pointer that may be null. -/
def touch? : Option Blk → H Unit
  | none => fun _ => none
  | some b => touch b

/-- `struct ulp_dynobj` with its name; `thread_states` is never set. -/
structure Obj where
  self : Blk
  filename : Blk
deriving DecidableEq, Repr

/-- `struct ulp_thread` -/
structure Thread where
  self : Blk
  tid : Nat
deriving DecidableEq, Repr

/-- `struct trigger_results` -/
structure Result where
  self : Blk
  name : Blk
deriving DecidableEq, Repr

/-- `struct ulp_process`, tools/introspection.h:45-70; `dynobj_patches` is never set. -/
structure Rec where
  self : Blk
  pid : Nat
  main : Option Obj := none
  targets : List Obj := []
  /-- `dynobj_libpulp` -/
  libpulp : Option Blk := none
  threads : List Thread := []
  /-- `main_thread` -/
  mainThread : Option Blk := none
  /-- `all_threads_hijacked` -/
  hijacked : Bool := false
  results : List Result := []
deriving DecidableEq, Repr

/-! ### Reading about a process -/

/-- `realloc` of the buffer of `read_string`, tools/ptrace.c:374-377, as often as the string asks for it. -/
def grow : Nat → Blk → H Blk
  | 0, b => pure b
  | n + 1, b => do
    free b
    let c ← alloc
    grow n c

/-- A string of the process: how often the buffer has to grow and whether all of it can be read. -/
structure Text where
  grows : Nat
  ok : Bool
deriving DecidableEq, Repr

/-- `read_string`, tools/ptrace.c:362-391 -/
def readString (t : Text) : H (Option Blk) := do
  let b ← alloc
  let b ← grow t.grows b
  if t.ok then pure (some b)
  else do
    free b
    pure none

/-- `get_symbol_by_name`, tools/introspection.c:427-460: the names read until one fits, cannot be read, or there are no more. -/
def lookup : List Text → H Unit
  | [] => pure ()
  | t :: ts => do
    let r ← readString t
    match r with
    | none => pure ()
    | some b => do
      free b
      lookup ts

/-- The lookups of `get_libpulp_extern_symbols`. -/
def lookups : List (List Text) → H Unit
  | [] => pure ()
  | l :: ls => do
    lookup l
    lookups ls

/-- What is found at an entry of the link map. -/
inductive Lib where
  | unreadable
  | named (name : Text) (libpulp : Bool)
deriving DecidableEq, Repr

/-- `get_libname_dynobj` and the loop around it, tools/introspection.c:1242-1276, 1291-1297: what was allocated for an entry that cannot be
read stays allocated. -/
def readLibs : List Lib → Rec → H Rec
  | [], r => pure r
  | .unreadable :: _, r => do
    let _ ← alloc
    pure r
  | .named t isPulp :: ls, r => do
    let b ← alloc
    let n ← readString t
    match n with
    | none => pure r
    | some f => readLibs ls { r with targets := ⟨b, f⟩ :: r.targets, libpulp := if isPulp then some b else r.libpulp }

/-- What the process answers. -/
structure Answers where
  attached : Bool
  /-- `get_target_binary_name` -/
  name : Bool
  /-- `dig_load_bias` -/
  bias : Bool
  /-- `dig_main_link_map` -/
  linkMap : Bool
  libs : List Lib
  symbols : List (List Text)
  /-- The state of libpulp can be read and says that it is ready. -/
  ready : Bool
deriving DecidableEq, Repr

/-- `dig_load_bias`, tools/introspection.c:1046-1129: `filename` is released at the end only. -/
def loadBias (ok : Bool) : H Unit := do
  let f ← alloc
  if ok then free f else pure ()

/-- `parse_main_dynobj`, tools/introspection.c:1135-1183 -/
def parseMain (a : Answers) (r : Rec) : H (Bool × Rec) :=
  if a.name then do
    let b ← alloc
    let f ← alloc
    let r : Rec := { r with main := some ⟨b, f⟩ }
    loadBias a.bias
    pure (a.bias && a.linkMap, r)
  else pure (false, r)

/-- `parse_libs_dynobj`, tools/introspection.c:1284-1324 -/
def parseLibs (a : Answers) (r : Rec) : H (Bool × Rec) := do
  let r ← readLibs a.libs r
  match r.libpulp with
  | none => pure (false, r)
  | some p => do
    touch p
    lookups a.symbols
    pure (true, r)

/-- `initialize_data_structures`, tools/introspection.c:1336-1378; whether it succeeds. -/
def initData (a : Answers) (r : Rec) : H (Bool × Rec) :=
  if a.attached then do
    let (ok, r) ← parseMain a r
    if ok then do
      let (ok, r) ← parseLibs a r
      if ok then do
        touch? r.libpulp
        pure (a.ready, r)
      else pure (false, r)
    else pure (false, r)
  else pure (false, r)

/-! ### Threads -/

/-- What the tool finds in `/proc/<pid>/task`: a thread, and whether attaching to it and reading its registers succeed, or an error. -/
inductive Entry where
  | thread (tid : Nat) (attach regs : Bool)
  | error
deriving DecidableEq, Repr

/-- `restore_threads`, tools/introspection.c:1842-1870, and the end of `hijack_threads`, 1600-1608. -/
def dropThreads : List Thread → H Unit
  | [] => pure ()
  | t :: ts => do
    touch t.self
    free t.self
    dropThreads ts

/-- The loops of `hijack_threads`, tools/introspection.c:1514-1619, over all that `readdir` returns in them. -/
def hijackLoop : List Entry → Rec → H (Bool × Rec)
  | [], r => pure (true, { r with hijacked := true })
  | .error :: _, r => do
    dropThreads r.threads
    pure (false, { r with threads := [] })
  | .thread tid attach regs :: es, r =>
    if tid = 0 ∨ r.threads.any (·.tid = tid) then hijackLoop es r
    else do
      let t ← alloc
      if attach && regs then
        hijackLoop es { r with threads := ⟨t, tid⟩ :: r.threads, mainThread := if tid = r.pid then some t else r.mainThread }
      else do
        free t
        dropThreads r.threads
        pure (false, { r with threads := [] })

/-- `hijack_threads`, tools/introspection.c:1472-1620; `opened`: the directory can be opened. -/
def hijack (opened : Bool) (es : List Entry) (r : Rec) : H (Bool × Rec) :=
  if r.hijacked || !opened then pure (false, r) else hijackLoop es r

/-- `n` uses of `main_thread`, as in `set_metadata_buffer`, `apply_patch`, `patch_applied`, `revert_patches_from_lib`
(tools/introspection.c:1413-1831) and `run_enable_disable_patching` (tools/set_patchable.c:37-51). -/
def useMain (r : Rec) : Nat → H Unit
  | 0 => pure ()
  | n + 1 => do
    touch? r.mainThread
    useMain r n

/-- What the commands do with a process: one attempt of the loops in `trigger_one_process` (tools/trigger.c:147-216),
`enable_or_disable_patching` (tools/set_patchable.c:77-99) and `run_check` (tools/check.c:94-119), or the result that
`trigger_one_process` notes at its end (tools/trigger.c:226-239). -/
inductive Use where
  | attempt (opened : Bool) (es : List Entry) (uses : Nat)
  | note
deriving DecidableEq, Repr

def use (u : Use) (r : Rec) : H Rec :=
  match u with
  | .attempt opened es n => do
    let (ok, r) ← hijack opened es r
    if ok then do
      useMain r n
      dropThreads r.threads
      pure { r with threads := [], hijacked := false }
    else pure r
  | .note => do
    let e ← alloc
    let n ← alloc
    pure { r with results := ⟨e, n⟩ :: r.results }

/-! ### Release -/

/-- `release_ulp_dynobj`, tools/introspection.c:207-218 -/
def releaseObjs : List Obj → H Unit
  | [] => pure ()
  | o :: os => do
    touch o.self
    free o.filename
    free o.self
    releaseObjs os

/-- `release_trigger_results`, tools/introspection.c:220-229 -/
def releaseResults : List Result → H Unit
  | [] => pure ()
  | r :: rs => do
    releaseResults rs
    free r.name
    free r.self

/-- `release_ulp_process`, tools/introspection.c:238-254, of one record; `release_ulp_thread`, 190-198. -/
def release (r : Rec) : H Unit := do
  dropThreads r.threads
  releaseObjs r.main.toList
  releaseObjs r.targets
  releaseResults r.results
  free r.self

/-- `release_ulp_process` of a list. -/
def releaseAll : List Rec → H Unit
  | [] => pure ()
  | r :: rs => do
    release r
    releaseAll rs

/-! ### Commands -/

/-- `insert_target_process`, tools/patches.c:608-630 -/
def insert (pid : Nat) (a : Answers) (last : List Rec) : H (List Rec) := do
  let b ← alloc
  let (ok, r) ← initData a { self := b, pid := pid }
  if ok then pure (r :: last)
  else do
    release r
    pure last

/-- What happens while processes are listed: one more is looked at, or one of those in the list is worked on.  With threads both go on at the
same time; a step here is a whole insertion or use, since they concern different records. -/
inductive Ev where
  | insert (pid : Nat) (a : Answers)
  | use (pid : Nat) (u : Use)
deriving DecidableEq, Repr

/-- The record of a process in the list. -/
def useAt (u : Use) (pid : Nat) : List Rec → H (List Rec)
  | [] => pure []
  | r :: rs =>
    if r.pid = pid then do
      let r ← use u r
      pure (r :: rs)
    else do
      let rs ← useAt u pid rs
      pure (r :: rs)

def events : List Ev → List Rec → H (List Rec)
  | [], l => pure l
  | .insert pid a :: es, l => do
    let l ← insert pid a l
    events es l
  | .use pid u :: es, l => do
    let l ← useAt u pid l
    events es l

/-- `ulp trigger`, `ulp patches` and `ulp set_patchable`: the list is released when it has been gone through (`process_list_end`,
tools/patches.c:182-200). -/
def listing (es : List Ev) : H Unit := do
  let l ← events es []
  releaseAll l

/-- `run_check` and `run_messages`, tools/check.c:42-144, tools/messages.c:137-172: one process, released whatever happens. -/
def single (pid : Nat) (a : Answers) (us : List Use) : H Unit := do
  let b ← alloc
  let (ok, r) ← initData a { self := b, pid := pid }
  let r ← if ok then us.foldlM (fun r u => use u r) r else pure r
  release r

/-! ### The thread that lists processes -/

/-- The flag, the handle of the thread and the queue in process_list_begin and process_list_end. -/
inductive Handle where
  | null
  | running
  | joined
deriving DecidableEq, Repr

/-- State of the listing: `enable_threading`, `original_enable_threading`, `process_list_thread`, `it->pcqueue`. -/
structure Listing where
  threading : Bool
  original : Bool := false
  thread : Handle := .null
  queue : Option Blk := none
deriving DecidableEq, Repr

/-- `process_list_begin`, tools/patches.c:138-178, up to the first process: `isPid` if the process is given by number, `proc` if `/proc` can be
opened.  Starting the thread succeeds. -/
def begin (isPid proc : Bool) (s : Listing) : H Listing :=
  let s := { s with original := s.threading, queue := none }
  if isPid then pure { s with threading := false }
  else if !proc then pure s
  else if s.threading then do
    let q ← alloc
    pure { s with queue := some q, thread := .running }
  else pure s

/-- `pthread_join`; `none`: undefined, of something that is no thread. -/
def join : Handle → H Handle
  | .running => pure .joined
  | _ => fun _ => none

/-- Wait for the thread, if threads are used. -/
def await (s : Listing) : H Handle := if s.threading then join s.thread else pure s.thread

/-- `process_list_end` after the last process, tools/patches.c:180-203, and `producer_consumer_delete`, tools/pcqueue.c:115-125. -/
def finish (l : List Rec) (s : Listing) : H Listing := do
  releaseAll l
  let t ← await s
  match s.queue with
  | none => pure { s with threading := s.original, thread := t }
  | some q => do
    free q
    pure { s with threading := s.original, thread := t, queue := none }

/-- A whole listing. -/
def whole (isPid proc : Bool) (es : List Ev) (s : Listing) : H Listing := do
  let s ← begin isPid proc s
  let l ← events (if isPid || proc then es else []) []
  finish l s

end Verif.Records
