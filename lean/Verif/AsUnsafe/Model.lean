import Verif.Base.Err

/-!
Model of the protection against patching a process that is inside malloc or the dynamic loader: the interposed
functions, `__ulp_asunsafe_trylock`, `__ulp_asunsafe_unlock`, `dl_locks_held` and their use in `__ulp_apply_patch` and
`__ulp_revert_patches_from_lib`, as a transition system over the threads of the process.
-/

namespace Verif.AsUnsafe

/-- A mutex of the dynamic loader: who holds it, and the futex word `__data.__lock` (0 free, 1 held, 2 held and
possibly waited for). -/
structure Lock where
  holder : Option Nat
  word : Nat
deriving DecidableEq, Repr

/-- Where the thread that serves a patch request is, lib/ulp.c:182-212 (and 150-178). -/
inductive Pc where
  | idle
  /-- Called by thread `h`, nothing checked. -/
  | started (h : Nat)
  /-- Past `dl_locks_held`, lib/interpose.c:372, before the compare-and-swap. -/
  | checked (h : Nat)
  /-- Past the compare-and-swap, before `__ulp_asunsafe_unlock`. -/
  | locked (h : Nat)
  /-- In `load_patch` or `revert_all_patches_from_lib`. -/
  | serving (h : Nat)
  /-- Returned. -/
  | done (h : Nat) (ret : Err)
deriving DecidableEq, Repr

structure St where
  /-- `flag`, lib/interpose.c:65. -/
  flag : Int
  /-- How many interposed calls each thread is inside (the real function may call an interposed one). -/
  depth : Nat → Nat
  /-- `dl_load_lock`. -/
  load : Lock
  /-- `dl_load_write_lock`. -/
  write : Lock
  /-- `__ulp_error_state`. -/
  err : Err
  pc : Pc

/-- Function update. -/
def upd (f : Nat → Nat) (t v : Nat) : Nat → Nat := fun u => if u = t then v else f u

/-- Which threads run.  While a request is served only the thread serving it does when the others are stopped, as
the trigger tool does (tools/introspection.c:1472-1616). -/
def runs (stopped : Bool) : Pc → Nat → Prop
  | .idle, _ => True
  | .serving h, t => t = h ∨ stopped = false
  | .started h, t | .checked h, t | .locked h, t | .done h _, t => t ≠ h ∧ stopped = false

/-- The libpulp assertions in `dl_locks_held`, lib/interpose.c:91-94, put libpulp in the error state when a
lock word is not 0 or 1 (lib/error.c:75-85). -/
def assertErr (s : St) : Err := if s.load.word ≤ 1 ∧ s.write.word ≤ 1 then s.err else EUNKNOWN

/-- Steps of a process with `n` threads, all of which are past `__ulp_asunsafe_begin`. -/
inductive Step (n : Nat) (stopped : Bool) : St → St → Prop
  /-- An interposed function: `__sync_fetch_and_add(&flag, 1)` and into the real one, lib/interpose.c:401, 416, 433,
  449, 464, 479, 494, 516, 548, 565, 581, 597, 613. -/
  | enter (s : St) (t : Nat) : t < n → runs stopped s.pc t →
      Step n stopped s { s with flag := s.flag + 1, depth := upd s.depth t (s.depth t + 1) }
  /-- Back from the real function, `__sync_fetch_and_sub(&flag, 1)`. -/
  | leave (s : St) (t : Nat) : t < n → runs stopped s.pc t → 0 < s.depth t →
      Step n stopped s { s with flag := s.flag - 1, depth := upd s.depth t (s.depth t - 1) }
  /-- dlopen, dlsym and the like take a loader lock.  A thread that waited for it sets the word to 2. -/
  | lockLoad (s : St) (t w : Nat) : t < n → runs stopped s.pc t → s.load.holder = none → w = 1 ∨ w = 2 →
      Step n stopped s { s with load := ⟨some t, w⟩ }
  | lockWrite (s : St) (t w : Nat) : t < n → runs stopped s.pc t → s.write.holder = none → w = 1 ∨ w = 2 →
      Step n stopped s { s with write := ⟨some t, w⟩ }
  /-- A thread starts waiting for a loader lock another one holds. -/
  | waitLoad (s : St) (t u : Nat) : t < n → runs stopped s.pc t → s.load.holder = some u → u ≠ t →
      Step n stopped s { s with load := ⟨some u, 2⟩ }
  | waitWrite (s : St) (t u : Nat) : t < n → runs stopped s.pc t → s.write.holder = some u → u ≠ t →
      Step n stopped s { s with write := ⟨some u, 2⟩ }
  /-- The holder releases a loader lock. -/
  | unlockLoad (s : St) (t : Nat) : t < n → runs stopped s.pc t → s.load.holder = some t →
      Step n stopped s { s with load := ⟨none, 0⟩ }
  | unlockWrite (s : St) (t : Nat) : t < n → runs stopped s.pc t → s.write.holder = some t →
      Step n stopped s { s with write := ⟨none, 0⟩ }
  /-- Thread `h` is made to call the entry point, wherever it is. -/
  | request (s : St) (h : Nat) : h < n → s.pc = .idle → Step n stopped s { s with pc := .started h }
  /-- libpulp is in an error state: nothing is done, lib/ulp.c:187-188. -/
  | refused (s : St) (h : Nat) : s.pc = .started h → s.err ≠ 0 →
      Step n stopped s { s with pc := .done h s.err }
  /-- `dl_locks_held` returns true: `EAGAIN`. -/
  | dlBusy (s : St) (h : Nat) : s.pc = .started h → s.err = 0 → (s.load.word ≠ 0 ∨ s.write.word ≠ 0) →
      Step n stopped s { s with err := assertErr s, pc := .done h EAGAIN }
  /-- `dl_locks_held` returns false. -/
  | dlFree (s : St) (h : Nat) : s.pc = .started h → s.err = 0 → s.load.word = 0 → s.write.word = 0 →
      Step n stopped s { s with err := assertErr s, pc := .checked h }
  /-- The compare-and-swap of lib/interpose.c:375 finds 0. -/
  | casOk (s : St) (h : Nat) : s.pc = .checked h → s.flag = 0 →
      Step n stopped s { s with flag := 1, pc := .locked h }
  /-- It finds something else: `EAGAIN`. -/
  | casBusy (s : St) (h : Nat) : s.pc = .checked h → s.flag ≠ 0 →
      Step n stopped s { s with pc := .done h EAGAIN }
  /-- `__sync_fetch_and_and(&flag, 0)`, lib/interpose.c:386; the request proceeds. -/
  | unlock (s : St) (h : Nat) : s.pc = .locked h →
      Step n stopped s { s with flag := 0, pc := .serving h }
  /-- The request is served with result `ret`, possibly leaving an error state; the thread is out of all calls it
  made meanwhile, and holds no lock. -/
  | serve (s : St) (h : Nat) (ret e : Err) : s.pc = .serving h → s.depth h = 0 →
      s.load.holder ≠ some h → s.write.holder ≠ some h →
      Step n stopped s { s with err := e, pc := .done h ret }
  /-- The breakpoint after the entry point is hit and the thread goes on where it was. -/
  | finish (s : St) (h : Nat) (ret : Err) : s.pc = .done h ret → Step n stopped s { s with pc := .idle }

/-- Reachable from `s`. -/
inductive Steps (n : Nat) (stopped : Bool) (s : St) : St → Prop
  | refl : Steps n stopped s s
  | tail {u v : St} : Steps n stopped s u → Step n stopped u v → Steps n stopped s v

/-- A process in which nothing happened yet. -/
def start (err : Err) : St := ⟨0, fun _ => 0, ⟨none, 0⟩, ⟨none, 0⟩, err, .idle⟩

/-- How many interposed calls the first `n` threads are inside. -/
def total : Nat → (Nat → Nat) → Nat
  | 0, _ => 0
  | n + 1, f => total n f + f n

end Verif.AsUnsafe
