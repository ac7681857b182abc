import Verif.Base.Err

/-!
Model of the locks of the C library that serving a request needs, of the threads that may hold them when the tool stops
the process, and of what `__ulp_asunsafe_trylock` (lib/interpose.c:370-380) sees of it.

While the request is served all threads but the one that serves it are stopped (tools/introspection.c:1472-1616), and what
that one was doing before is stopped as well: nobody releases a lock that is held.
-/

namespace Verif.Waits

/-- Locks of the C library: of an arena of the allocator, the two of the loader, and that of the time zone, which
`localtime_r` takes (glibc, time/tzset.c, `tzset_lock`). -/
inductive Lock where
  | arena (a : Nat)
  | load
  | write
  | zone
deriving DecidableEq, Repr

/-- Functions of the C library that take a lock. -/
inductive Fn where
  /-- The interposed functions of the allocator, lib/interpose.c:391-531, at work in arena `a`. -/
  | alloc (a : Nat)
  /-- Functions of the allocator that libpulp does not interpose: `malloc_trim`, `malloc_info`, `mallopt`, the part of
  `fork` that takes the arenas, the part of the end of a thread that gives its arena back. -/
  | upkeep (a : Nat)
  /-- Functions of the loader that libpulp interposes, lib/interpose.c:534-617. -/
  | dlclose
  /-- Functions of the loader that it does not interpose: `dlopen`, `dlsym`, and `dl_iterate_phdr`. -/
  | dlopen
  | phdrs
  /-- `localtime`, `localtime_r`, `mktime`, `strftime`, `tzset`. -/
  | clock
deriving DecidableEq, Repr

def Fn.lock : Fn → Lock
  | .alloc a | .upkeep a => .arena a
  | .dlclose | .dlopen => .load
  | .phdrs => .write
  | .clock => .zone

/-- The function adds one to `flag` while it runs, lib/interpose.c:401-403 and the like. -/
def Fn.counted : Fn → Bool
  | .alloc _ | .dlclose => true
  | _ => false

/-- A function that a thread is inside, and whether it holds the lock. -/
structure Frame where
  fn : Fn
  held : Bool
deriving DecidableEq, Repr

/-- The functions a thread is inside, innermost first. -/
abbrev Thread := List Frame

structure St where
  threads : List Thread
  /-- `flag`, lib/interpose.c:65. -/
  flag : Nat

def Thread.holds (t : Thread) (l : Lock) : Prop := ∃ f ∈ t, f.held = true ∧ f.fn.lock = l

def St.holds (s : St) (l : Lock) : Prop := ∃ t ∈ s.threads, Thread.holds t l

instance (t : Thread) (l : Lock) : Decidable (t.holds l) := by unfold Thread.holds; infer_instance

instance (s : St) (l : Lock) : Decidable (s.holds l) := by unfold St.holds; infer_instance

/-- The locks of the loader may be taken again by the thread that holds them. -/
def Lock.recursive : Lock → Bool
  | .load | .write => true
  | _ => false

def one (b : Bool) : Nat := if b then 1 else 0

/-- The threads of the program at work.  Threads come and go outside of these functions. -/
inductive Step : St → St → Prop
  | spawn (pre post n) : Step ⟨pre ++ post, n⟩ ⟨pre ++ [] :: post, n⟩
  | exit (pre post n) : Step ⟨pre ++ [] :: post, n⟩ ⟨pre ++ post, n⟩
  /-- Into a function; an interposed one counts. -/
  | call (pre t post n) (f : Fn) : Step ⟨pre ++ t :: post, n⟩ ⟨pre ++ (⟨f, false⟩ :: t) :: post, n + one f.counted⟩
  /-- The function gets its lock: it is free, or recursive and held by the same thread. -/
  | take (pre t post n) (f : Fn) (h : ∀ u ∈ pre ++ post, ¬ Thread.holds u f.lock)
      (ho : Thread.holds t f.lock → f.lock.recursive = true) :
      Step ⟨pre ++ (⟨f, false⟩ :: t) :: post, n⟩ ⟨pre ++ (⟨f, true⟩ :: t) :: post, n⟩
  | give (pre t post n) (f : Fn) : Step ⟨pre ++ (⟨f, true⟩ :: t) :: post, n⟩ ⟨pre ++ (⟨f, false⟩ :: t) :: post, n⟩
  /-- Back from the function. -/
  | back (pre t post n) (f : Fn) : Step ⟨pre ++ (⟨f, false⟩ :: t) :: post, n⟩ ⟨pre ++ t :: post, n - one f.counted⟩

/-- The states the tool may find the process in: it starts with one thread, outside of these functions, once libpulp's
constructor has run. -/
inductive Reach : St → Prop
  | init : Reach ⟨[[]], 0⟩
  | step {s s'} : Reach s → Step s s' → Reach s'

/-- `__ulp_asunsafe_trylock` lets the request pass, lib/interpose.c:370-380, 88-98. -/
def passes (s : St) : Prop := s.flag = 0 ∧ ¬ s.holds .load ∧ ¬ s.holds .write

instance (s : St) : Decidable (passes s) := by unfold passes; infer_instance

/-- What libpulp calls while it serves a request. -/
inductive Call where
  /-- `calloc`, `strndup`, `free`, at work in arena `a`. -/
  | memory (a : Nat)
  /-- `ulp_warn` and `ulp_debug`, lib/msg_queue.c:142-178: they call `localtime_r`. -/
  | log
  /-- `dlopen`, which allocates. -/
  | open (a : Nat)
  /-- `dlsym`. -/
  | sym
  /-- `dl_iterate_phdr`. -/
  | phdrs
deriving DecidableEq, Repr

/-- Taking and releasing a lock. -/
inductive Op where
  | take (l : Lock)
  | give (l : Lock)
deriving DecidableEq, Repr

def Call.ops : Call → List Op
  | .memory a => [.take (.arena a), .give (.arena a)]
  | .log => [.take .zone, .give .zone]
  | .open a => [.take .load, .take (.arena a), .give (.arena a), .give .load]
  | .sym => [.take .load, .give .load]
  | .phdrs => [.take .write, .give .write]

inductive Outcome where
  | ends
  | waits (l : Lock)
deriving DecidableEq, Repr

/-- The request at work, with the locks it holds itself; the threads are stopped as in `s`. -/
def run (s : St) (own : List Lock) : List Op → Outcome
  | [] => .ends
  | .take l :: ops => if s.holds l ∨ (l ∈ own ∧ l.recursive = false) then .waits l else run s (l :: own) ops
  | .give l :: ops => run s (own.erase l) ops

/-- Serving a request in the course of which libpulp makes the given calls. -/
def serve (s : St) (calls : List Call) : Outcome := run s [] (calls.flatMap Call.ops)

/-- How large a patch is. -/
structure Size where
  units : Nat
  deps : Nat
  refs : Nat

/-- The calls of a successful request to apply a patch by a thread with arena `a`, from the end of the checks on:
`load_metadata` (lib/ulp.c:321) and `parse_metadata_from_mem` (common/common.c:281-507), `check_build_id`
(lib/ulp.c:1037), `load_so_handlers` (lib/ulp.c:422), `ulp_state_update` (lib/ulp.c:767-829), `ulp_apply_all_units`
(lib/ulp.c:649-735), `unload_metadata` (lib/ulp.c:306-311).  Every function is given a new root; symbols of references are
looked up. -/
def applyCalls (a : Nat) (z : Size) : List Call :=
  List.replicate (5 + 3 * z.units + z.deps + 3 * z.refs) (.memory a) ++ [.log, .phdrs, .open a] ++
    List.replicate (3 + z.deps) (.memory a) ++ (List.replicate z.units [.memory a, .phdrs, .sym]).flatten ++
    (List.replicate z.units [.phdrs, .sym, .memory a, .memory a, .log]).flatten ++ [.phdrs, .phdrs] ++
    List.replicate z.refs .sym ++ List.replicate (5 + 3 * z.units + 3 * z.refs) (.memory a)

/-- The calls of a successful request to revert a patch with `n` detours: `load_metadata`, `ulp_revert_all_units`
(lib/ulp.c:1224-1259; each detour logs, lib/arch/x86_64/patch.c:157,164), `ulp_state_remove` (lib/ulp.c:1195-1210),
`unload_metadata`. -/
def revertCalls (a n : Nat) (z : Size) : List Call :=
  List.replicate 5 (.memory a) ++ List.replicate n .log ++ List.replicate (z.units + z.deps + 2) (.memory a) ++
    List.replicate 5 (.memory a)

end Verif.Waits
