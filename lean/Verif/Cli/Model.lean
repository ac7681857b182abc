import Verif.Base.Err
import Verif.Base.Str

/-!
Model of the command line of `ulp`: tools/ulp.c, tools/arguments.h, the option tables of the commands, `run_trigger` up to
the search for processes, and of argp as far as it matters: options may be abbreviated, joined, and mixed with other words
(the environment variable POSIXLY_CORRECT is not set).
-/

namespace Verif.Cli

def b (s : String) : Str := s.toUTF8.toList

/-- `command_t` without `ULP_NONE`, tools/arguments.h:39-52. -/
inductive Cmd where
  | patches | check | dump | packer | trigger | post | messages | livepatchable | extract | setPatchable
deriving DecidableEq, Repr

def allCmds : List Cmd :=
  [.patches, .check, .dump, .packer, .trigger, .post, .messages, .livepatchable, .extract, .setPatchable]

/-- The table of `command_from_string`, tools/ulp.c:145-151. -/
def Cmd.name : Cmd → Str
  | .patches => b "patches" | .check => b "check" | .dump => b "dump" | .packer => b "packer" | .trigger => b "trigger"
  | .post => b "post" | .messages => b "messages" | .livepatchable => b "livepatchable" | .extract => b "extract"
  | .setPatchable => b "set_patchable"

/-- `command_from_string`, tools/ulp.c:137-161; `none` for `ULP_NONE`. -/
def ofString (s : Str) : Option Cmd := allCmds.find? fun c => c.name == s

/-- `get_command_from_args`, tools/ulp.c:164-176. -/
def ofArgs : List Str → Option Cmd
  | [] => none
  | w :: ws =>
    match ofString w with
    | some c => some c
    | none => ofArgs ws

/-- The options; `help`, `usage`, `version`, `programName` and `hang` are argp's own. -/
inductive Key where
  | verbose | quiet | process | user | noThreads | revertAll | timeout | noSummary | recursive | root | noSeccomp | checkStack
  | retries | revert | color | buildid | onlyPatched | output | debuginfo | livepatch | target
  | help | usage | version | programName | hang
deriving DecidableEq, Repr

inductive Arg where
  | no | required | optional
deriving DecidableEq, Repr

/-- `struct argp_option`. -/
structure Opt where
  long : Str
  short : Option UInt8
  key : Key
  arg : Arg
deriving DecidableEq, Repr

def chr (c : Char) : Option UInt8 := some c.toNat.toUInt8

def oVerbose : Opt := ⟨b "verbose", chr 'v', .verbose, .no⟩
def oQuiet : Opt := ⟨b "quiet", chr 'q', .quiet, .no⟩
def oProcess : Opt := ⟨b "process", chr 'p', .process, .required⟩
def oUser : Opt := ⟨b "user", chr 'u', .user, .required⟩
def oNoThreads : Opt := ⟨b "disable-threading", none, .noThreads, .no⟩
def oColor : Opt := ⟨b "color", none, .color, .required⟩
def oRetries : Opt := ⟨b "retries", chr 'r', .retries, .required⟩
def oRevert : Opt := ⟨b "revert", none, .revert, .no⟩
def oBuildid : Opt := ⟨b "buildid", chr 'b', .buildid, .no⟩
def oOutput : Opt := ⟨b "output", chr 'o', .output, .required⟩

/-- The option tables: tools/trigger.c:675-705, check.c:149-155, patches.c:673-686, messages.c:177-183, extract.c:742-750,
packer.c:1261-1272, post.c:156-161, dump.c:129-137, livepatchable.c:78-83, set_patchable.c:147-157.  `stack`: configured with
`ENABLE_STACK_CHECK`. -/
def table (stack : Bool) : Cmd → List Opt
  | .trigger =>
    [oVerbose, oQuiet, oProcess, oUser, oNoThreads, ⟨b "revert-all", none, .revertAll, .required⟩, ⟨b "timeout", none, .timeout, .required⟩,
     ⟨b "disable-summarization", none, .noSummary, .no⟩, ⟨b "recursive", none, .recursive, .no⟩, ⟨b "root", chr 'R', .root, .required⟩,
     ⟨b "disable-seccomp", none, .noSeccomp, .no⟩] ++ (if stack then [⟨b "check-stack", chr 'c', .checkStack, .no⟩] else []) ++
    [oRetries, oRevert, oColor]
  | .check => [oVerbose, oQuiet, oProcess]
  | .patches => [oVerbose, oQuiet, oProcess, oUser, oNoThreads, oBuildid, ⟨b "only-livepatched", none, .onlyPatched, .no⟩, oColor]
  | .messages => [oVerbose, oQuiet, oProcess]
  | .extract => [oVerbose, oQuiet, oOutput, ⟨b "with-debuginfo", chr 'd', .debuginfo, .required⟩]
  | .packer => [oVerbose, oQuiet, oOutput, ⟨b "livepatch", chr 'l', .livepatch, .required⟩, ⟨b "target", chr 't', .target, .required⟩]
  | .post => [oVerbose, oQuiet]
  | .dump => [oVerbose, oQuiet, oBuildid, oRevert]
  | .livepatchable => [oVerbose, oQuiet]
  | .setPatchable => [oVerbose, oQuiet, oProcess, oUser, oNoThreads, oRetries]

/-- The options argp adds (glibc, argp/argp-parse.c:70-84, 146-150). -/
def argpOpts : List Opt :=
  [⟨b "help", chr '?', .help, .no⟩, ⟨b "usage", none, .usage, .no⟩, ⟨b "program-name", none, .programName, .required⟩,
   ⟨b "HANG", none, .hang, .optional⟩, ⟨b "version", chr 'V', .version, .no⟩]

/-- `get_command_option`, tools/ulp.c:423-484, and argp's options. -/
def options (stack : Bool) (c : Option Cmd) : List Opt :=
  (match c with | some c => table stack c | none => []) ++ argpOpts

/-! ### argp -/

/-- The option for a long name: the one of that name, or the only one that begins with it (glibc, posix/getopt.c:186-330). -/
def findLong (t : List Opt) (n : Str) : Option Opt :=
  match t.find? (fun o => o.long == n) with
  | some o => some o
  | none =>
    match t.filter (fun o => n.isPrefixOf o.long) with
    | [o] => some o
    | _ => none

/-- What argp finds in the words: an option, or an error. -/
inductive Event where
  | opt (k : Key) (v : Option Str)
  | bad
deriving DecidableEq, Repr

/-- The rest of a word of short options (posix/getopt.c:560-690), and the option that takes the next word as its value. -/
def cluster (t : List Opt) : Str → List Event × Option Key
  | [] => ([], none)
  | c :: cs =>
    match t.find? (fun o => o.short == some c) with
    | none => ([.bad], none)
    | some o =>
      if o.arg = .required then
        if cs = [] then ([], some o.key) else ([.opt o.key (some cs)], none)
      else
        let r := cluster t cs
        (.opt o.key none :: r.1, r.2)

/-- A long option (the word without its dashes), likewise. -/
def longOpt (t : List Opt) (body : Str) : List Event × Option Key :=
  let name := body.takeWhile (· != 61)
  let v : Option Str := if 61 ∈ body then some ((body.dropWhile (· != 61)).drop 1) else none
  match findLong t name with
  | none => ([.bad], none)
  | some o =>
    match o.arg, v with
    | .no, none => ([.opt o.key none], none)
    | .no, some _ => ([.bad], none)
    | .required, some v => ([.opt o.key (some v)], none)
    | .required, none => ([], some o.key)
    | .optional, v => ([.opt o.key v], none)

/-- The options in a list of words, in order, and the other words.  `pending`: the option the next word belongs to. -/
def scan (t : List Opt) : (pending : Option Key) → List Str → List Event × List Str
  | none, [] => ([], [])
  | some _, [] => ([.bad], [])
  | some k, w :: ws =>
    let r := scan t none ws
    (.opt k (some w) :: r.1, r.2)
  | none, w :: ws =>
    if w = [45, 45] then ([], ws)
    else if w.take 2 = [45, 45] then
      let l := longOpt t (w.drop 2)
      let r := scan t l.2 ws
      (l.1 ++ r.1, r.2)
    else if w.take 1 = [45] ∧ w ≠ [45] then
      let l := cluster t (w.drop 1)
      let r := scan t l.2 ws
      (l.1 ++ r.1, r.2)
    else
      let r := scan t none ws
      (r.1, w :: r.2)

/-! ### `parser` -/

/-- `struct arguments`, tools/arguments.h:54-78; `color`, `timeout`: the variables set by `--color` and `--timeout`
(tools/ulp.c:364-384). -/
structure Arguments where
  arg : Option Str := none
  livepatch : Option Str := none
  library : Option Str := none
  metadata : Option Str := none
  process : Option Str := none
  user : Option Str := none
  prefix_ : Option Str := none
  debuginfo : Option Str := none
  retries : Int := 1
  quiet : Bool := false
  verbose : Bool := false
  buildid : Bool := false
  revert : Bool := false
  noThreads : Bool := false
  recursive : Bool := false
  noSummary : Bool := false
  onlyPatched : Bool := false
  noSeccomp : Bool := false
  checkStack : Bool := false
  color : Option Str := none
  timeout : Nat := 200
deriving DecidableEq, Repr

def isSpace (c : UInt8) : Bool := c == 32 || (9 ≤ c && c ≤ 13)
def isDigit (c : UInt8) : Bool := 48 ≤ c && c ≤ 57

def digits (s : Str) : Nat := (s.takeWhile isDigit).foldl (fun v c => 10 * v + (c.toNat - 48)) 0

/-- `strtol (s, NULL, 10)`. -/
def strtol (s : Str) : Int :=
  let s := s.dropWhile isSpace
  let v : Int := if s.take 1 = [45] then - (digits (s.drop 1)) else if s.take 1 = [43] then digits (s.drop 1) else digits s
  max (- 2 ^ 63) (min (2 ^ 63 - 1) v)

/-- `atoi`: `strtol` cut to 32 bits. -/
def atoi (s : Str) : Int := (strtol s + 2 ^ 31) % 2 ^ 32 - 2 ^ 31

/-- `isnumber`, common/common.c:167-181. -/
def isNumber (s : Str) : Bool := s != [] && s.all isDigit

/-- `argp_error`: exit status `EX_USAGE`. -/
def usageError : Nat := 64

/-- The cases of `parser` for options, tools/ulp.c:279-351, 364-384; `error`: the status the program exits with (argp's
own options: 0). -/
def option (a : Arguments) : Event → Except Nat Arguments
  | .bad => .error usageError
  | .opt k v =>
    match k with
    | .verbose => .ok { a with verbose := true }
    | .quiet => .ok { a with quiet := true }
    | .process => .ok { a with process := v }
    | .buildid => .ok { a with buildid := true }
    | .output => .ok { a with metadata := v }
    | .livepatch => .ok { a with livepatch := v }
    | .target => .ok { a with library := v }
    | .retries => if atoi (v.getD []) < 1 then .error usageError else .ok { a with retries := atoi (v.getD []) }
    | .root => .ok { a with prefix_ := v }
    | .debuginfo => .ok { a with debuginfo := v }
    | .revertAll => .ok { a with library := v.map getBasename }
    | .revert => .ok { a with revert := true }
    | .noThreads => .ok { a with noThreads := true }
    | .recursive => .ok { a with recursive := true }
    | .noSummary => .ok { a with noSummary := true }
    | .onlyPatched => .ok { a with onlyPatched := true }
    | .noSeccomp => .ok { a with noSeccomp := true }
    | .user => .ok { a with user := v }
    | .checkStack => .ok { a with checkStack := true }
    | .color => .ok { a with color := v }
    | .timeout => if isNumber (v.getD []) then .ok { a with timeout := (strtol (v.getD [])).toNat } else .error usageError
    | .help | .usage | .version => .error 0
    | .programName | .hang => .ok a

/-- All options in order. -/
def optionAll (a : Arguments) : List Event → Except Nat Arguments
  | [] => .ok a
  | e :: es =>
    match option a e with
    | .ok a => optionAll a es
    | .error n => .error n

/-- `ULP_PATH_LEN`, include/ulp_common.h:39. -/
def pathLen : Nat := 256

/-- `handle_end_of_arguments`, tools/ulp.c:180-267: whether nothing is wrong.  `n` words were given. -/
def endOk (c : Cmd) (a : Arguments) (n : Nat) : Bool :=
  !(a.quiet && a.verbose) &&
  match c with
  | .patches => n ≤ 1
  | .extract | .packer | .check => 2 ≤ n
  | .trigger =>
    (match a.library with
     | some l => !a.revert && l.length ≤ pathLen
     | none => 2 ≤ n) &&
    (n < 2 || (a.arg.getD []).length ≤ pathLen)
  | .post | .dump => 2 ≤ n && (a.arg.getD []).length ≤ pathLen
  | .messages => a.process.isSome
  | .setPatchable | .livepatchable => 2 ≤ n

/-- The words that are not options, tools/ulp.c:352-366, and the end. -/
def words (a : Arguments) : List Str → Except Nat (Cmd × Arguments)
  | [] => .error usageError
  | w :: ws =>
    match ofString w with
    | none => .error usageError
    | some c =>
      match ws with
      | [] => if endOk c a 1 then .ok (c, a) else .error usageError
      | [x] => if endOk c { a with arg := some x } 2 then .ok (c, { a with arg := some x }) else .error usageError
      | _ => .error usageError

/-- `argp_parse` with the table chosen in `main`, tools/ulp.c:533-538.  `argv` with the name of the program. -/
def parse (stack : Bool) (argv : List Str) : Except Nat (Cmd × Arguments) :=
  let r := scan (options stack (ofArgs argv)) none argv.tail
  match optionAll {} r.1 with
  | .error n => .error n
  | .ok a => words a r.2

/-! ### `main` -/

/-- `requires_ptrace`, tools/ulp.c:488-507. -/
def requiresPtrace : Cmd → Bool
  | .patches | .trigger | .check | .messages | .setPatchable => true
  | _ => false

/-- The system: whether the effective user is root, the first four bytes of /proc/sys/kernel/yama/ptrace_scope if it exists,
and /proc/self/status if it can be opened. -/
structure Sys where
  root : Bool
  scope : Option Str
  status : Option Str

/-- `check_ptrace_scope`, tools/ptrace.c:637-655; `none`: the assertion fails. -/
def ptraceScope (y : Sys) : Option Bool :=
  if y.root then some true
  else
    match y.scope with
    | none => some true
    | some s => if s.length = 2 then some (s.take 1 == [48]) else none

/-- How `ulp` goes on: it exits, the assertion fails, or the command is run. -/
inductive Outcome where
  | exit (status : Nat)
  | abort
  | run (c : Cmd) (a : Arguments)
deriving DecidableEq, Repr

/-- `main`, tools/ulp.c:510-599. -/
def main (stack : Bool) (y : Sys) (argv : List Str) : Outcome :=
  match parse stack argv with
  | .error n => .exit n
  | .ok (c, a) =>
    if requiresPtrace c then
      match ptraceScope y with
      | none => .abort
      | some false => .exit EPERM
      | some true => .run c a
    else .run c a

/-! ### `run_trigger` -/

def isDelim (c : UInt8) : Bool := c == 32 || c == 9 || c == 10

/-- `strtok (line, " \t\n")`, and what remains. -/
def token (s : Str) : Option (Str × Str) :=
  let s := s.dropWhile isDelim
  if s = [] then none else some (s.takeWhile (fun c => !isDelim c), (s.dropWhile (fun c => !isDelim c)).drop 1)

def hexDigit (c : UInt8) : Option Nat :=
  if 48 ≤ c ∧ c ≤ 57 then some (c.toNat - 48) else if 97 ≤ c ∧ c ≤ 102 then some (c.toNat - 87)
  else if 65 ≤ c ∧ c ≤ 70 then some (c.toNat - 55) else none

/-- The hexadecimal digits at the start. -/
def hexRun : Str → List Nat
  | [] => []
  | c :: cs =>
    match hexDigit c with
    | some d => d :: hexRun cs
    | none => []

/-- `sscanf (s, "%lx", …)` of a text without sign and without `0x` (the kernel writes 16 digits); `none`: nothing is read. -/
def scanHex (s : Str) : Option Nat :=
  match hexRun s with
  | [] => none
  | ds => some (min (2 ^ 64 - 1) (ds.foldl (fun v d => 16 * v + d) 0))

/-- The loop of `check_sys_admin`, tools/trigger.c:597-619, over the lines of the file; `none`: a NULL pointer is used. -/
def checkLines : List Str → Option Bool
  | [] => some false
  | l :: ls =>
    match token l with
    | none => none
    | some (t, rest) =>
      if t = b "CapPrm:" then
        match token rest with
        | none => none
        | some (v, _) =>
          match scanHex v with
          | none => some false
          | some n => some (n.testBit 21)
      else checkLines ls

/-- The lines of a file as `getline` finds them. -/
def lines : Str → List Str
  | [] => []
  | c :: cs =>
    if c = 10 then [10] :: lines cs
    else
      match lines cs with
      | [] => [[c]]
      | l :: ls => (c :: l) :: ls

/-- `check_sys_admin`, tools/trigger.c:578-626. -/
def checkSysAdmin (y : Sys) : Option Bool :=
  match y.status with
  | none => some false
  | some f => checkLines (lines f)

def ENOSYS : Nat := 38

/-- `run_trigger`, tools/trigger.c:630-670, up to `trigger_many_processes`: it returns a status, or goes on (`none`), or uses
a NULL pointer. -/
inductive Trigger where
  | status (n : Nat)
  | go
  | crash
deriving DecidableEq, Repr

def runTrigger (y : Sys) (a : Arguments) : Trigger :=
  if a.user.isSome then .status ENOSYS
  else if a.noSeccomp then
    match checkSysAdmin y with
    | none => .crash
    | some false => .status EPERM
    | some true => .go
  else .go

end Verif.Cli
