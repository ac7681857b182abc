import Verif.Base.Err

/-!
Model of the start of a process with libpulp: the constructors of libpulp (lib/ulp.c:58-63, lib/interpose.c:257-360), the
interposed functions (lib/interpose.c:394-618) as long as `__ulp_asunsafe_begin` has not finished, and what a request meets
that arrives meanwhile.  A transition system over any number of threads, in which libraries initialised before libpulp, or
threads they start, may call interposed functions at any time.
-/

namespace Verif.Startup

/-- The interposed functions. -/
inductive Fn where
  | free | malloc | calloc | realloc | valloc | pvalloc | memalign | alignedAlloc | posixMemalign
  | dlclose | dladdr | dladdr1 | dlinfo
deriving DecidableEq, Repr

/-- Those of the dynamic loader, which call `__ulp_asunsafe_begin` if they are not known yet (lib/interpose.c:558-618); the
others use the functions `__libc_…` (or `__libc_memalign`, see `Verif.Alloc`) until then (:394-553). -/
def Fn.loader : Fn → Bool
  | .dlclose | .dladdr | .dladdr1 | .dlinfo => true
  | _ => false

/-- What does not change: whether `dlsym (RTLD_NEXT, …)` finds the function, and whether one of the variables
`LIBPULP_DISABLE_ON_…` applies (see `Verif.ErrState`). -/
structure Env where
  found : Fn → Bool
  blocked : Bool

/-- The statements of `__ulp_asunsafe_begin`. -/
inductive Op where
  /-- `real_f = dlsym (RTLD_NEXT, "f")` -/
  | lookup (f : Fn)
  /-- `if (!real_f) { set_libpulp_error_state_with_reason (…); ok = false; }` -/
  | check (f : Fn)
  /-- `if (ok == false) return;` -/
  | stop
  /-- `get_ld_global_locks`; that the program may exit here is C70. -/
  | locks
  /-- `dl_locks_held ()`, for its assertions. -/
  | assert
  /-- The three `maybe_disable_livepatching_on_…`. -/
  | disable
deriving DecidableEq, Repr

/-- The body of `__ulp_asunsafe_begin`, lib/interpose.c:270-359. -/
def code : List Op :=
  [.lookup .dlclose, .lookup .dladdr, .lookup .dladdr1, .lookup .dlinfo,
   .check .dlclose, .check .dladdr, .check .dladdr1, .check .dlinfo,
   .lookup .free, .lookup .malloc, .lookup .calloc, .lookup .realloc, .lookup .valloc, .lookup .pvalloc, .lookup .memalign,
   .lookup .alignedAlloc, .lookup .posixMemalign,
   .check .free, .check .malloc, .check .calloc, .check .realloc, .check .pvalloc, .check .memalign, .check .alignedAlloc,
   .check .posixMemalign,
   .stop, .locks, .assert, .disable]

/-- What a thread is doing, innermost call first. -/
inductive Frame where
  /-- In `__ulp_asunsafe_begin`, before statement `pc`, with its variable `ok`; called by an interposed function of the loader
  or (`none`) as a constructor. -/
  | begin (pc : Nat) (ok : Bool) (caller : Option Fn)
  /-- In an interposed function, about to add one to `flag` and to call `real_f`. -/
  | entering (f : Fn)
  /-- In the function `real_f` (counted in `flag`) or in the one of the C library (not counted). -/
  | inside (f : Fn) (counted : Bool)
deriving DecidableEq, Repr

/-- How far the main thread is with the constructors of libpulp; that of ulp.c comes first (lib/Makefile.am:22-24). -/
inductive Stage where
  /-- None has run. -/
  | early
  /-- `begin` has run. -/
  | loaded
  /-- `__ulp_asunsafe_begin` has been called. -/
  | called
deriving DecidableEq, Repr

structure St where
  /-- Which of `real_…` are not NULL. -/
  real : Fn → Bool
  /-- `dl_load_lock` and `dl_load_write_lock` are not NULL. -/
  locks : Bool
  /-- `__ulp_error_state`. -/
  err : Err
  /-- `__ulp_state.load_state`. -/
  load : Bool
  /-- `flag`. -/
  flag : Int
  stage : Stage
  /-- The calls each thread is in. -/
  stack : Nat → List Frame
  /-- History variable: whether the `LIBPULP_DISABLE_ON_…` have been looked at. -/
  looked : Bool

def upd {α : Type} (f : Nat → α) (t : Nat) (v : α) : Nat → α := fun u => if u = t then v else f u

def set (f : Fn → Bool) (g : Fn) (v : Bool) : Fn → Bool := fun x => if x = g then v else f x

/-- A process at its start. -/
def start : St := ⟨fun _ => false, false, ENONE, false, 0, .early, fun _ => [], false⟩

/-- The code a missing function is reported with. -/
def missing (f : Fn) : Err := if f.loader then ENOLIBDL else ENOLIBC

/-- Where a thread goes on after `__ulp_asunsafe_begin`. -/
def back : Option Fn → List Frame
  | none => []
  | some f => [.entering f]

/-- Calling `__ulp_asunsafe_begin`: nothing is done if `real_malloc` is known, lib/interpose.c:265. -/
def call (s : St) (caller : Option Fn) : List Frame := if s.real .malloc then back caller else [.begin 0 true caller]

/-- One statement of `__ulp_asunsafe_begin` in thread `t`.  `odd`: a lock word is neither 0 nor 1 at the assertion. -/
def exec (e : Env) (s : St) (t pc : Nat) (ok : Bool) (caller : Option Fn) (r : List Frame) (odd : Bool) : Op → St
  | .lookup f => { s with real := set s.real f (e.found f), stack := upd s.stack t (.begin (pc + 1) ok caller :: r) }
  | .check f =>
    if s.real f then { s with stack := upd s.stack t (.begin (pc + 1) ok caller :: r) }
    else { s with err := missing f, stack := upd s.stack t (.begin (pc + 1) false caller :: r) }
  | .stop => { s with stack := upd s.stack t (if ok then .begin (pc + 1) ok caller :: r else back caller ++ r) }
  | .locks => { s with locks := true, stack := upd s.stack t (.begin (pc + 1) ok caller :: r) }
  | .assert => { s with err := if odd then EUNKNOWN else s.err, stack := upd s.stack t (.begin (pc + 1) ok caller :: r) }
  | .disable => { s with err := if e.blocked then EUSRBLOCKED else s.err, looked := true,
                         stack := upd s.stack t (.begin (pc + 1) ok caller :: r) }

/-- What a request to apply or revert finds, lib/ulp.c:150-212 (the queue is empty): `word` is the state of the loader's
locks.  `crash`: `dl_locks_held` (lib/interpose.c:88-97) uses a NULL pointer. -/
inductive Outcome where
  | notReady | refused | crash | busy | granted
deriving DecidableEq, Repr

def gate (s : St) (held : Bool) : Outcome :=
  if !s.load then .notReady
  else if s.err ≠ ENONE then .refused
  else if !s.locks then .crash
  else if held || s.flag ≠ 0 then .busy
  else .granted

/-- Steps of a process with `n` threads; the main thread is thread 0.  `toggled`: whether someone uses `ulp set_patchable`. -/
inductive Step (e : Env) (n : Nat) (toggled : Bool) : St → St → Prop
  /-- The constructor `begin`, lib/ulp.c:58-63. -/
  | load (s : St) : s.stage = .early → s.stack 0 = [] → Step e n toggled s { s with load := true, stage := .loaded }
  /-- `__ulp_asunsafe_begin` is called as a constructor. -/
  | ctor (s : St) : s.stage = .loaded → s.stack 0 = [] →
      Step e n toggled s { s with stage := .called, stack := upd s.stack 0 (call s none) }
  /-- A thread calls a function of the allocator which is known; also from within `dlsym` or a real function. -/
  | known (s : St) (t : Nat) (f : Fn) : t < n → f.loader = false → s.real f = true → (∀ g r, s.stack t ≠ .entering g :: r) →
      Step e n toggled s { s with stack := upd s.stack t (.entering f :: s.stack t) }
  /-- One which is not known: that of the C library is called. -/
  | unknown (s : St) (t : Nat) (f : Fn) : t < n → f.loader = false → s.real f = false → (∀ g r, s.stack t ≠ .entering g :: r) →
      Step e n toggled s { s with stack := upd s.stack t (.inside f false :: s.stack t) }
  /-- One of the loader. -/
  | loader (s : St) (t : Nat) (f : Fn) : t < n → f.loader = true → (∀ g r, s.stack t ≠ .entering g :: r) →
      Step e n toggled s { s with stack := upd s.stack t ((if s.real f then [.entering f] else call s (some f)) ++ s.stack t) }
  /-- `__sync_fetch_and_add (&flag, 1)` and into the real function; if that is NULL there is no step. -/
  | enter (s : St) (t : Nat) (f : Fn) (r : List Frame) : t < n → s.stack t = .entering f :: r → s.real f = true →
      Step e n toggled s { s with flag := s.flag + 1, stack := upd s.stack t (.inside f true :: r) }
  /-- Back from the function. -/
  | leave (s : St) (t : Nat) (f : Fn) (c : Bool) (r : List Frame) : t < n → s.stack t = .inside f c :: r →
      Step e n toggled s { s with flag := if c then s.flag - 1 else s.flag, stack := upd s.stack t r }
  /-- A statement of `__ulp_asunsafe_begin`. -/
  | exec (s : St) (t pc : Nat) (ok : Bool) (caller : Option Fn) (r : List Frame) (odd : Bool) (op : Op) : t < n →
      s.stack t = .begin pc ok caller :: r → code[pc]? = some op → Step e n toggled s (exec e s t pc ok caller r odd op)
  /-- The end of `__ulp_asunsafe_begin`. -/
  | done (s : St) (t pc : Nat) (ok : Bool) (caller : Option Fn) (r : List Frame) : t < n →
      s.stack t = .begin pc ok caller :: r → code[pc]? = none →
      Step e n toggled s { s with stack := upd s.stack t (back caller ++ r) }
  /-- A request was granted and served, possibly leaving an error behind. -/
  | served (s : St) (x : Err) : gate s false = .granted → Step e n toggled s { s with err := x }
  /-- `ulp_enable_or_disable_patching`, lib/ulp.c:1275-1298. -/
  | toggle (s : St) : toggled = true → s.load = true →
      Step e n toggled s { s with err := if s.err = ENONE then EUSRBLOCKED else if s.err = EUSRBLOCKED then ENONE else s.err }

/-- Reachable from `s`. -/
inductive Steps (e : Env) (n : Nat) (toggled : Bool) (s : St) : St → Prop
  | refl : Steps e n toggled s s
  | tail {u v : St} : Steps e n toggled s u → Step e n toggled u v → Steps e n toggled s v

end Verif.Startup
