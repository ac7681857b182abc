import Verif.Base.Str
import Verif.Cli.Model

/-!
Model of scripts/setup_package.sh, which makes the descriptions of the libraries of a package: the choice of packages from
the list of a repository, the names of their files, the age limit, the extraction of descriptions by several jobs at once.
Bash is 4.4 or later: there, `continue` in a function called from a loop does not act on that loop.
-/

namespace Verif.Setup

open Cli (b)

/-! ### Jobs at once -/

/-- `printf '%.3d'` of an exit status, scripts/setup_package.sh:115. -/
def code3 (n : Nat) : Str := [(48 + n / 100 % 10).toUInt8, (48 + n / 10 % 10).toUInt8, (48 + n % 10).toUInt8]

/-- The value of digits in an arithmetic expression of bash: octal if they begin with 0; `none`: an error. -/
def arith (x : Str) : Option Nat :=
  if x.take 1 = [48] then
    if x.all (fun c => decide (c < 56)) then some (x.foldl (fun v c => 8 * v + (c.toNat - 48)) 0) else none
  else some (x.foldl (fun v c => 10 * v + (c.toNat - 48)) 0)

/-- `((0==x))`, :111. -/
def isZero (x : Str) : Bool := arith x == some 0

/-- The exit status of `expr` that computes `v`. -/
def exprStatus (v : Nat) : Nat := if v = 0 then 1 else 0

/-- The status of `( "$@"; STARTED=`expr $STARTED + 1`)`, :113, where the command has the status `cmd`: that of the last
command in it, which is the assignment, and so that of `expr`.  `started` is the main shell's variable. -/
def jobStatus (started _cmd : Nat) : Nat := exprStatus (started + 1)

/-- The main shell with its jobs.  `dirs`: the libraries of the directories to come; `todo`: those of this one still to be
handed out; `pipe`: the bytes in the pipe; `running`: libraries whose job has not yet written its status; `ended`: the
others, oldest first; `stopped`: the text given to `exit`, :111.  `started` and `endedVar` are `STARTED` and `ENDED`. -/
structure Conf where
  dirs : List (List Nat)
  todo : List Nat
  pipe : Str
  running : List Nat
  ended : List Nat
  stopped : Option Str
  started : Nat
  endedVar : Nat

/-- After `open_sem n`, :82-95. -/
def start (n : Nat) (dirs : List (List Nat)) : Conf where
  dirs := dirs
  todo := []
  pipe := (List.replicate n [48, 48, 48]).flatten
  running := []
  ended := []
  stopped := none
  started := 0
  endedVar := 0

/-- Steps of the main shell and of jobs; `cmd l`: the status of `ulp_extract_task` for the library `l`.  The variables that
a job assigns are its own (`( … )&`).  A status is written at once (3 bytes into a pipe). -/
inductive Step (cmd : Nat → Nat) : Conf → Conf → Prop
  /-- `run_with_lock`, :108-118: a token is read, a job is started. -/
  | take {c : Conf} {l : Nat} {t : List Nat} {x y z : UInt8} {p : Str} (h : c.stopped = none) (ht : c.todo = l :: t)
      (hp : c.pipe = x :: y :: z :: p) (hz : isZero [x, y, z] = true) :
      Step cmd c { c with todo := t, pipe := p, running := c.running ++ [l] }
  /-- The token says failure: `exit $x`, :111. -/
  | stop {c : Conf} {l : Nat} {t : List Nat} {x y z : UInt8} {p : Str} (h : c.stopped = none) (ht : c.todo = l :: t)
      (hp : c.pipe = x :: y :: z :: p) (hz : isZero [x, y, z] = false) :
      Step cmd c { c with pipe := p, stopped := some [x, y, z] }
  /-- A job comes to its end, :112-117. -/
  | finish {c : Conf} {l : Nat} {r₁ r₂ : List Nat} (hr : c.running = r₁ ++ l :: r₂) :
      Step cmd c { c with running := r₁ ++ r₂, ended := c.ended ++ [l], pipe := c.pipe ++ code3 (jobStatus c.started (cmd l)) }
  /-- `wait`, :639, and the next directory, :680-682. -/
  | next {c : Conf} {d : List Nat} {ds : List (List Nat)} (h : c.stopped = none) (ht : c.todo = []) (hr : c.running = [])
      (hd : c.dirs = d :: ds) : Step cmd c { c with dirs := ds, todo := d }

/-- Any number of steps, counted. -/
inductive Steps (cmd : Nat → Nat) : Nat → Conf → Conf → Prop
  | refl (c) : Steps cmd 0 c c
  | tail {n c d e} : Steps cmd n c d → Step cmd d e → Steps cmd (n + 1) c e

/-- The status the script exits with at this place, if it does: `exit $x`, or `close_sem`, :97-105, after all directories;
0 then means that it goes on to "Done.". -/
def exits (c : Conf) : Option Nat :=
  match c.stopped with
  | some x => some (x.foldl (fun v c => 10 * v + (c.toNat - 48)) 0)
  | none =>
    if c.dirs = [] ∧ c.todo = [] ∧ c.running = [] then some (if c.started ≠ c.endedVar then 1 else 0) else none

/-! ### Packages -/

/-- `$lib_name [^ ]+ $ARCH`, :248, matched at the beginning of a text; the name and the architecture have no characters
that are special to grep but perhaps the dot, which none of the supported ones has. -/
def matchHere (name arch s : Str) : Bool :=
  name.isPrefixOf s &&
  match s.drop name.length with
  | [] => false
  | c :: r => c == 32 && (r.takeWhile (· != 32) != []) && ([32] ++ arch).isPrefixOf (r.dropWhile (· != 32))

/-- `grep -E`: anywhere in the line. -/
def grep (name arch : Str) : Str → Bool
  | [] => matchHere name arch []
  | c :: s => matchHere name arch (c :: s) || grep name arch s

/-- A line of the list of packages, made at :213. -/
structure Pack where
  name : Str
  evr : Str
  arch : Str
deriving DecidableEq, Repr

/-- The line of a package, :213. -/
def Pack.line (p : Pack) : Str := p.name ++ [32] ++ p.evr ++ [32] ++ p.arch

/-- `${pname};${evr};${arch}`, :247. -/
def Pack.nevra (p : Pack) : Str := p.name ++ [59] ++ p.evr ++ [59] ++ p.arch

/-- `extract_lib_package_names`, :240-251, on a list whose lines have three words each: the packages; if there are none the
loop goes once with nothing read. -/
def nevras (name arch : Str) (packs : List Pack) : List Str :=
  match packs.filter fun p => grep name arch p.line with
  | [] => [[59, 59]]
  | l => l.map Pack.nevra

/-- The check of `main`, :889-893: whether the script goes on. -/
def found (l : List Str) : Bool := l != [[59, 59]]

/-- `${1/c/r}`: the first `c` replaced. -/
def replaceFirst (c r : UInt8) : Str → Str
  | [] => []
  | x :: s => if x = c then r :: s else x :: replaceFirst c r s

/-- `get_filename_from_nevra`, :218-223. -/
def filename (nevra : Str) : Str := replaceFirst 59 46 (replaceFirst 59 45 nevra) ++ b ".rpm"

/-- Words separated by semicolons. -/
def fields : Str → List Str
  | [] => [[]]
  | c :: s =>
    if c = 59 then [] :: fields s
    else match fields s with
      | [] => [[c]]
      | f :: fs => (c :: f) :: fs

/-- `get_name_from_package_name`, :232-238. -/
def nameOf (nevra : Str) : Str := (fields nevra)[0]?.getD []

/-- `get_version_from_package_name`, :225-230. -/
def versionOf (nevra : Str) : Str := (fields nevra)[1]?.getD []

/-! ### Age -/

/-- A number in decimal, as `date +%s` prints it. -/
def dec (n : Nat) : Str := if n < 10 then [(48 + n).toUInt8] else dec (n / 10) ++ [(48 + n % 10).toUInt8]
termination_by n

/-- `<` of `[[ … ]]`: texts in the order of a dictionary (digits come in their order in every locale). -/
def textLess : Str → Str → Bool
  | [], [] => false
  | [], _ :: _ => true
  | _ :: _, [] => false
  | x :: s, y :: t => decide (x < y) || (x == y && textLess s t)

/-- Whether a package is dropped for its age, :941-948; `file`, `limit`: the times. -/
def dropped (unsupported : Bool) (file limit : Nat) : Bool := !unsupported && textLess (dec file) (dec limit)

/-! ### Extraction -/

/-- The words of the command that `ulp_extract_task`, :589-616, runs for a library; `matching`: the debug files that
`match_so_to_debuginfo`, :565-587, finds, one of which it wants (otherwise `$debug` is empty, and gives no word).  As
`continue` does nothing, whether the library is live-patchable does not matter. -/
def extractTask (noDebug : Bool) (_livepatchable : Bool) (so : Str) (matching : List Str) : List Str :=
  if noDebug then [b "ulp", b "extract", so, b "-o", so ++ b ".json"]
  else [b "ulp", b "extract", so, b "-d"] ++ (if matching.length = 1 then matching else []) ++ [b "-o", so ++ b ".json"]

end Verif.Setup
