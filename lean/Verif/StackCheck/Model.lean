import Verif.SymLoad.Model
import Verif.Trigger.Model

/-!
Model of `ulp trigger --check-stack`: the address range of a library from `/proc/<pid>/maps`, the search of the stacks of all
threads for addresses in that range, and what the trigger tool does with the outcome (compiled in with `ENABLE_STACK_CHECK`).

libunwind is trusted: a thread is what walking its stack with it gives.  Not modelled: failures to open or read the file, and
allocation failures.
-/

namespace Verif.StackCheck

open Verif.SymLoad (strstr)

abbrev Str := List UInt8

/-- Value of a hexadecimal digit. -/
def hexVal (c : UInt8) : Option Nat :=
  if 48 ≤ c ∧ c ≤ 57 then some (c.toNat - 48)
  else if 97 ≤ c ∧ c ≤ 102 then some (c.toNat - 87)
  else if 65 ≤ c ∧ c ≤ 70 then some (c.toNat - 55)
  else none

/-- Digits of a number: its value and what follows. -/
def digits : (acc : Nat) → Str → Nat × Str
  | acc, [] => (acc, [])
  | acc, c :: s => match hexVal c with
    | some d => digits (16 * acc + d) s
    | none => (acc, c :: s)

/-- `isspace` in the C locale. -/
def isSpace (c : UInt8) : Bool := c = 32 ∨ (9 ≤ c ∧ c ≤ 13)

/-- `0x` that is followed by a digit is skipped. -/
def skip0x : Str → Str
  | 48 :: x :: c :: s => if (x = 120 ∨ x = 88) ∧ (hexVal c).isSome then c :: s else 48 :: x :: c :: s
  | s => s

/-- An optional sign: whether it is a minus, and what follows. -/
def sign : Str → Bool × Str
  | [] => (false, [])
  | c :: t => if c = 45 then (true, t) else if c = 43 then (false, t) else (false, c :: t)

/-- `strtoul(s, &end, 16)`, C11 7.22.1.4: value, `end`, and whether `errno` is set to `ERANGE`. -/
def strtoul (s : Str) : Nat × Str × Bool :=
  let (neg, t) := sign (s.dropWhile isSpace)
  let t := skip0x t
  match t with
  | [] => (0, s, false)
  | c :: _ => match hexVal c with
    | none => (0, s, false)
    | some _ =>
      let (v, e) := digits 0 t
      if 2 ^ 64 ≤ v then (2 ^ 64 - 1, e, true) else (if neg then (2 ^ 64 - v) % 2 ^ 64 else v, e, false)

/-- `range_start`, `range_end` and `errno ≠ 0`. -/
structure Range where
  lo : Nat
  hi : Nat
  err : Bool
deriving DecidableEq, Repr

/-- One line, tools/introspection.c:2398-2414.  Of a line that ends with the first number nothing more is read; the kernel
writes no such line. -/
def rangeStep (library : Str) (r : Range) (line : Str) : Range :=
  if strstr line library then
    let (addr1, rest, e1) := strtoul line
    let (addr2, _, e2) := strtoul (rest.drop 1)
    ⟨if addr1 < r.lo then addr1 else r.lo, if addr2 > r.hi then addr2 else r.hi, r.err || e1 || e2⟩
  else r

/-- `library_range_detect`, tools/introspection.c:2368-2424. -/
def libraryRange (library : Str) (maps : List Str) : Range := maps.foldl (rangeStep library) ⟨2 ^ 64 - 1, 0, false⟩

/-- What walking the stack of a thread gives: program counters from the innermost frame on (`unw_get_reg`, `unw_step`), and how it
ends. -/
inductive Walk where
  /-- `unw_step` returns 0. -/
  | done
  /-- A step or a register fails, or already `_UPT_create` or `unw_init_remote`. -/
  | fail
  | frame (pc : Nat) (rest : Walk)
deriving DecidableEq, Repr, Inhabited

/-- The loop of one thread, tools/introspection.c:2481-2501: `some found`, `none`: error. -/
def walkLoop (r : Range) : Walk → Option Bool
  | .done => some false
  | .fail => none
  | .frame pc w => if r.lo < pc ∧ pc < r.hi then some true else walkLoop r w

/-- The loop over threads, tools/introspection.c:2466-2510: the value returned. -/
def threadLoop (r : Range) : List Walk → Int
  | [] => 0
  | w :: ws => match walkLoop r w with
    | none => -1
    | some true => 1
    | some false => threadLoop r ws

/-- `coarse_library_range_check` with `library` `NULL`, tools/introspection.c:2436-2523; `target` is the name of the target library
in the metadata if metadata was loaded (`ulp.objs`); `none`: a null pointer is dereferenced. -/
def check (target : Option Str) (maps : List Str) (threads : List Walk) : Option Int :=
  match target with
  | none => none
  | some library =>
    let r := libraryRange library maps
    if r.err then some (-1) else some (threadLoop r threads)

/-! ### The trigger tool -/

open Verif.Trigger (Attempt Event Task attempt)

/-- A process at one attempt: what the steps return, and what is looked at by the check. -/
structure Env where
  steps : Attempt
  maps : List Str
  threads : List Walk

/-- One attempt after a successful hijack, tools/trigger.c:158-214 with `ENABLE_STACK_CHECK`, `--check-stack` given. -/
def attemptChecked (task : Task) (target : Option Str) (e : Env) (result : Int) (retry : Nat) : Option (Int × Nat × List Event) :=
  match check target e.maps e.threads with
  | none => none
  | some ret =>
    if ret ≠ 0 then some (result, if e.steps.restore ≠ 0 then 0 else retry, [.restore])
    else some (attempt task e.steps result retry)

/-- The loop of `trigger_one_process`, tools/trigger.c:143-232, with `--check-stack`: result and events of each attempt, or the
events until the tool crashes. -/
def loopChecked (task : Task) (target : Option Str) (env : Nat → Env) : (fuel retry i : Nat) → (result : Int) → Option Int × List (List Event)
  | 0, _, _, result => (some result, [])
  | fuel + 1, retry, i, result =>
    if retry = 0 then (some result, [])
    else if (env i).steps.hijack > 0 then (some (env i).steps.hijack, [[.hijack]])
    else match attemptChecked task target (env i) result (retry - 1) with
      | none => (none, [[.hijack]])
      | some (result, retry', ev) =>
        let (r, evs) := loopChecked task target env fuel retry' (i + 1) result
        (r, (.hijack :: ev) :: evs)

/-- `trigger_one_process` past the checks before the loop; metadata is loaded iff there is a livepatch (tools/trigger.c:119-125). -/
def triggerChecked (task : Task) (library : Str) (env : Nat → Env) (retries : Nat) : Option Int × List (List Event) :=
  loopChecked task (if task.livepatch then some library else none) env retries retries 0 (-1)

end Verif.StackCheck
