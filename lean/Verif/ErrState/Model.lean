import Verif.Base.Err
import Verif.Base.Str

/-!
Model of the error state of libpulp (`__ulp_error_state`): how it is set up from the environment when a process starts, and
how `ulp set_patchable` changes it.
-/

namespace Verif.ErrState

/-- The next token of `strtok (…, ":")` and what remains: leading separators are skipped, then all up to the next
separator. -/
def strtok : Str → Option (Str × Str)
  | [] => none
  | c :: cs => if c = 58 then strtok cs else
      some ((c :: cs).takeWhile (· ≠ 58), ((c :: cs).dropWhile (· ≠ 58)).drop 1)

/-- All tokens; the loops of lib/interpose.c:135-136, 181-182, 234-235.  `fuel` at least the length of the text. -/
def tokens : (fuel : Nat) → Str → List Str
  | 0, _ => []
  | fuel + 1, s =>
    match strtok s with
    | none => []
    | some (t, rest) => t :: tokens fuel rest

/-- `isnumber`, common/common.c:167-181. -/
def isNumber (s : Str) : Bool := s != [] && s.all (fun c => decide (48 ≤ c ∧ c ≤ 57))

/-- `strtoul (s, NULL, 10)` of digits, lib/interpose.c:183: `ULONG_MAX` if too large. -/
def strtoul (s : Str) : Nat := min (2 ^ 64 - 1) (s.foldl (fun v c => 10 * v + (c.toNat - 48)) 0)

/-- The test of a token in `maybe_disable_livepatching_on_user`, lib/interpose.c:183-189, and likewise `_on_group`,
:236-242.  `fnmatch` is any relation. -/
def idMatches (fnmatch : Str → Str → Bool) (id : Nat) (name : Option Str) (w : Str) : Bool :=
  if isNumber w && strtoul w == id then true
  else match name with
    | some n => fnmatch w n
    | none => false

/-- The loop over the tokens of a variable, which may be unset. -/
def disableOn (matches_ : Str → Bool) (var : Option Str) (state : Err) : Err :=
  match var with
  | none => state
  | some v => if (tokens v.length v).any matches_ then EUSRBLOCKED else state

/-- What a process has around it at its start: the three variables, the path that `readlink` finds, its user and group. -/
structure Env where
  onPath : Option Str
  onUsers : Option Str
  onGroups : Option Str
  exe : Option Str
  uid : Nat
  uname : Option Str
  gid : Nat
  gname : Option Str

/-- `PATH_MAX`. -/
def pathMax : Nat := 4096

/-- `maybe_disable_livepatching_on_path`, lib/interpose.c:107-147 (the copy of the variable could be allocated): `none` when
it writes outside `process_path`, :132, which it does if `readlink` failed or filled the buffer. -/
def onPath (fnmatch : Str → Str → Bool) (env : Env) (state : Err) : Option Err :=
  match env.onPath with
  | none => some state
  | some v =>
    match env.exe with
    | none => none
    | some p => if pathMax ≤ p.length then none else some (disableOn (fun w => fnmatch w p) (some v) state)

/-- The end of `__ulp_asunsafe_begin`, lib/interpose.c:357-359, from the state set up before. -/
def start (fnmatch : Str → Str → Bool) (env : Env) (state : Err) : Option Err :=
  match onPath fnmatch env state with
  | none => none
  | some state =>
    let state := disableOn (idMatches fnmatch env.uid env.uname) env.onUsers state
    some (disableOn (idMatches fnmatch env.gid env.gname) env.onGroups state)

/-- `ulp_enable_or_disable_patching`, lib/ulp.c:1275-1298: the new state, which it also returns. -/
def toggle (state : Err) : Err :=
  if state = ENONE then EUSRBLOCKED else if state = EUSRBLOCKED then ENONE else state

/-- How an attempt of `ulp set_patchable` goes: whether threads are hijacked, the error of `run_and_redirect` if any (and
whether the routine ran before that), whether threads are restored. -/
structure Att where
  hijacked : Bool
  runErr : Err
  ran : Bool
  restored : Bool
deriving DecidableEq, Repr

/-- What the tool tells. -/
inductive Report where
  | changed
  | unable (ret : Err)
  | refused (state : Err)
deriving DecidableEq, Repr

/-- The loop, tools/set_patchable.c:72-91: state of the process and `ret`, `none` as long as it is not assigned. -/
def attempts (env : Nat → Att) : (n i : Nat) → (state : Err) → (ret : Option Err) → Err × Option Err
  | 0, _, state, ret => (state, ret)
  | n + 1, i, state, ret =>
    let a := env i
    if a.hijacked = false then (state, ret)
    else
      let state' := if a.runErr = 0 ∨ a.ran = true then toggle state else state
      let ret' := if a.runErr ≠ 0 then a.runErr else state'
      if a.restored = false then (state', some ret')
      else if ret' ≠ EAGAIN then (state', some ret')
      else attempts env n (i + 1) state' (some ret')

/-- `enable_or_disable_patching`, tools/set_patchable.c:63-111; `none` for the report if it depends on a variable that was
never assigned. -/
def setPatchable (env : Nat → Att) (retries : Nat) (enable : Bool) (state : Err) : Err × Option Report :=
  if (state = ENONE ∧ enable = false) ∨ (state = EUSRBLOCKED ∧ enable = true) then
    match attempts env retries 0 state none with
    | (s, none) => (s, none)
    | (s, some ret) =>
      (s, some (if (ret = ENONE ∧ enable = true) ∨ (ret = EUSRBLOCKED ∧ enable = false) then .changed else .unable ret))
  else (state, some (.refused state))

/-! ### Two tools at once -/

/-- Where a tool is: has not read the state, will run the toggle, is done. -/
inductive Pc where
  | start
  | checked
  | done
deriving DecidableEq, Repr

/-- A process and tools working on it, each with what it was asked for. -/
structure Sys where
  state : Err
  tools : List (Bool × Pc)

/-- One step of one tool: reading the state (tools/set_patchable.c:66-70), or the hijacked call (:73-83), which the tools
do one after the other. -/
inductive Step : Sys → Sys → Prop
  | check (s : Sys) (i : Nat) (en : Bool) (h : s.tools[i]? = some (en, .start)) :
      Step s { s with tools := s.tools.set i (en,
        if (s.state = ENONE ∧ en = false) ∨ (s.state = EUSRBLOCKED ∧ en = true) then .checked else .done) }
  | run (s : Sys) (i : Nat) (en : Bool) (h : s.tools[i]? = some (en, .checked)) :
      Step s { state := toggle s.state, tools := s.tools.set i (en, .done) }

/-- Any number of steps. -/
inductive Steps : Sys → Sys → Prop
  | refl (s) : Steps s s
  | tail {s t u} : Steps s t → Step t u → Steps s u

end Verif.ErrState
