import Verif.Report.Model
import Verif.Status.Model
import Verif.Diag.Model
import Verif.Check.Model

/-!
Model of the text that `ulp` writes to its standard output: with and without colours (tools/ulp.c:362-373, 395-420, 527-528,
include/terminal_colors.h), and with `--quiet`.  What the commands decide to print is in the topics Report (`ulp trigger`),
Status (`ulp patches`) and Diag (`ulp packer`); here it becomes text.
-/

namespace Verif.Paint

open Verif.Report (Result minor scan condense firstErr)
open Verif.Trigger (skippableError)

/-- The characters of a literal. -/
def lit (s : String) : Str := s.toUTF8.toList

/-! ### Whether to use colours -/

/-- What the decision depends on: the variables `NO_COLOR` and `TERM`, and `isatty(STDOUT_FILENO)`. -/
structure Env where
  noColor : Option Str
  term : Option Str
  tty : Bool

/-- `check_color_available`, tools/ulp.c:395-411. -/
def available (e : Env) : Bool :=
  if e.noColor.isSome then false
  else if e.tty then
    match e.term with
    | some t => t ≠ lit "dumb"
    | none => false
  else false

/-- `case ULP_OP_COLOR` of the option parser, tools/ulp.c:362-373: the new value of `no_color`. -/
def option (e : Env) (arg : Str) : Bool :=
  if arg = lit "no" ∨ arg = lit "n" then true
  else if arg = lit "auto" then !available e
  else false

/-- `no_color` after `main` has parsed the command line, tools/ulp.c:527-539; `args` are the arguments of the options `--color`, in
order. -/
def noColor (e : Env) (args : List Str) : Bool := args.foldl (fun _ a => option e a) (!available e)

/-! ### Text with colours -/

/-- The escape sequences used, include/terminal_colors.h:4-12. -/
inductive Sgr where
  | green | yellow | red | bold | reset
deriving DecidableEq, Repr

def Sgr.bytes : Sgr → Str
  | .red => 27 :: lit "[31;1m"
  | .green => 27 :: lit "[32;1m"
  | .yellow => 27 :: lit "[33;1m"
  | .bold => 27 :: lit "[;1m"
  | .reset => 27 :: lit "[0m"

/-- A call of `printf` or `putchar`, or one of `change_color`. -/
inductive Piece where
  | text (s : Str)
  | sgr (c : Sgr)
deriving DecidableEq, Repr

/-- What a call writes; `change_color` is tools/ulp.c:414-420. -/
def Piece.bytes (noColor : Bool) : Piece → Str
  | .text s => s
  | .sgr c => if noColor then [] else c.bytes

/-- What a sequence of calls writes. -/
def render (noColor : Bool) (ps : List Piece) : Str := ps.flatMap (Piece.bytes noColor)

/-- The texts that go into the report of `ulp trigger`: name and number of the process, messages of errors, names of patches. -/
structure Words where
  name : Str
  pid : Str
  error : BitVec 32 → Str

/-- A line of the long form, tools/trigger.c:451-474. -/
def longLine (w : Words) (hide : Bool) (r : Result) : List Piece :=
  if minor r.err then
    (if hide then []
     else [.sgr .yellow, .text (lit "    SKIPPED"), .sgr .reset, .text (lit " " ++ r.name ++ lit ": " ++ w.error r.err ++ lit "\n")])
  else if r.err ≠ 0#32 then
    [.sgr .red, .text (lit "    FAILED"), .sgr .reset, .text (lit " " ++ r.name ++ lit ": " ++ w.error r.err ++ lit "\n")]
  else [.sgr .green, .text (lit "    SUCCESS"), .sgr .reset, .text (lit " " ++ r.name ++ lit "\n")]

/-- The short form, tools/trigger.c:430-449. -/
def shortLine (w : Words) (err : BitVec 32) (chosen : Option Result) : List Piece :=
  if skippableError err then
    [.sgr .yellow, .text (lit " SKIPPED"), .sgr .reset, .text (lit " " ++ w.error err ++ lit "\n")]
  else if err ≠ 0#32 then
    [.sgr .red, .text (lit " FAILED"), .sgr .reset] ++
      (match chosen with
       | some c => [.text (lit " " ++ c.name ++ lit ": " ++ w.error err ++ lit "\n")]
       | none => [])
  else
    [.sgr .green, .text (lit " SUCCESS"), .sgr .reset] ++
      (match chosen with
       | some c => [.text (lit " " ++ c.name ++ lit "\n")]
       | none => [])

/-- `print_patched_unpatched`, tools/trigger.c:370-475. -/
def report (w : Words) (results : List Result) (summarize : Bool) : List Piece :=
  let (err, hide) := scan results (firstErr results) false
  let (summarized, chosen) := condense err hide results true none
  if chosen = none ∧ summarized = true then []
  else
    let (summarized, hide) := if summarize then (summarized, hide) else (false, false)
    .text (lit "  " ++ w.name ++ lit " (pid: " ++ w.pid ++ lit "):") ::
      (if summarized then shortLine w err chosen
       else .text (lit "\n") :: results.flatMap (longLine w hide))

/-- The end of `trigger_many_processes`, tools/trigger.c:560-563. -/
def totals (s : Trigger.Summary) : List Piece :=
  if s.successes + s.skippes + s.failures > 0 then
    [.text (lit "ulp: Processes patched: " ++ Text.printDec s.successes ++ lit ", Skipped: " ++ Text.printDec s.skippes ++ lit ", Failed: " ++
      Text.printDec s.failures ++ lit ".\n")]
  else []

/-- The standard output of `trigger_many_processes`, tools/trigger.c:489-566: a report on each process unless `--quiet` is given
(tools/trigger.c:556-557), and the totals. -/
def trigger (quiet summarize : Bool) (ps : List (Words × List Result)) (s : Trigger.Summary) : List Piece :=
  (if quiet then [] else ps.flatMap fun p => report p.1 p.2 summarize) ++ totals s

/-- The texts that go into the output of `ulp patches`: the process number, messages of errors, build ids and versions as text, dates
(`asctime`), the lines with labels of a container. -/
structure Texts where
  pid : Str
  error : Err → Str
  buildId : List UInt8 → Str
  version : Nat → Str
  date : Nat → Str
  labels : Str → Str

/-- The lines of `ulp patches`, tools/patches.c:377-396, 510-577.  The header for processes without a program (`(none)`, :556-557) is left
out: the program itself is the first object. -/
def line (t : Texts) : Status.Line → List Piece
  | .process name => [.text (lit "PID: " ++ t.pid ++ lit ", name: " ++ name ++ lit "\n")]
  | .enabled => [.text (lit "  Livepatching status: "), .sgr .green, .text (lit "enabled\n"), .sgr .reset]
  | .disabledByUser => [.text (lit "  Livepatching status: "), .sgr .yellow, .text (lit "disabled by user\n"), .sgr .reset]
  | .disabled e =>
    [.text (lit "  Livepatching status: "), .sgr .red, .text (lit "disabled (internal error: " ++ t.error e ++ lit ")\n"), .sgr .reset]
  | .header => [.text (lit "  Livepatchable libraries:\n")]
  | .library f b v =>
    [.text (lit "    in " ++ f)] ++ (match b with | some b => [.text (lit " (" ++ t.buildId b ++ lit ")")] | none => []) ++
      (match v with | some v => [.text (lit " (version " ++ t.version v ++ lit ")")] | none => []) ++ [.text (lit ":\n")]
  | .patch c on =>
    [.text (lit "      livepatch: " ++ c)] ++ (match on with | some n => [.text (lit " loaded on " ++ t.date n)] | none => []) ++ [.text (t.labels c)]
  | .empty => [.text (lit "\n")]

/-- The standard output of `ulp patches` for some processes, tools/patches.c:649-668.  `quiet` is not looked at. -/
def patches (_quiet : Bool) (ps : List (Texts × List Status.Line)) : List Piece := ps.flatMap fun p => p.2.flatMap (line p.1)

/-- The calls that make up a message of `ulp packer`, tools/packer.c:378-460. -/
def diag : Diag.Out → Piece
  | .bold => .sgr .bold
  | .red => .sgr .red
  | .reset => .sgr .reset
  | .char c => .text [c]

/-! ### Messages -/

/-- A call that writes to the standard error. -/
inductive Say where
  /-- `WARN`, include/ulp_common.h:275 -/
  | warn (s : Str)
  /-- `DEBUG`, include/ulp_common.h:276 -/
  | debug (s : Str)
  /-- `FATAL`, include/ulp_common.h:268-273 -/
  | fatal (s : Str)
deriving DecidableEq, Repr

/-- What is written: tools/introspection.c:85-127, include/ulp_common.h:268-276; `stamp` is the time in brackets. -/
def Say.bytes (quiet verbose : Bool) (stamp : Str) : Say → Str
  | .warn s => if quiet then [] else stamp ++ lit "ulp: " ++ s ++ lit "\n"
  | .debug s => if verbose then stamp ++ lit "ulp: " ++ s ++ lit "\n" else []
  | .fatal s => lit "ulp: " ++ s ++ lit "\n" ++ lit "PROGRAM POTENTIALLY LEFT IN INCONSISTENT STATE."

/-- The standard error of a command. -/
def stderr (quiet verbose : Bool) (stamp : Str) (says : List Say) : Str := says.flatMap (Say.bytes quiet verbose stamp)

/-- The messages of `run_check` after the metadata was parsed, tools/check.c:79-138 (compare `Check.afterParse`). -/
def checkRest (w : Check.World) (id : Check.Proc → Int × Int × Check.Proc) (p : Check.Proc) : List Say :=
  if !Text.isnumber w.pid then [.warn (lit "check does not support process wildcard")]
  else if w.init ≠ 0 then [.warn (lit "error gathering target process information.")]
  else if w.sanity ≠ 0 then [.warn (lit "error checking live patch sanity.")]
  else if w.hijack = 265 then [.fatal (lit "fatal error during live patch application (hijacking).")]
  else if w.hijack > 0 then [.warn (lit "unable to hijack process.")]
  else
    let r := id { p with held := true }
    (if r.1 = -1 then [.fatal (lit "fatal error during live patch status check (hijacked execution).")]
     else if r.1 ≠ 0 then [.warn (lit "error during live patch status check (hijacked execution).")] else []) ++
    (if w.restore ≠ 0 then [.fatal (lit "fatal error during live patch application (restoring).")]
     else if r.1 ≠ 0 then []
     else if r.2.1 = 0 then [.warn (lit "patch not yet applied")] else [.warn (lit "patch already applied")])

/-- The messages of `run_check` itself, tools/check.c:43-144; those of the functions it calls are all `WARN` or `DEBUG`.  `none`: undefined
behaviour.  The text of the metadata in the message of :73 is left out. -/
def checkSays (w : Check.World) (c : Check.Container) (p : Check.Proc) : Option (List Say) :=
  match Check.extractTo c with
  | .ub => none
  | .null => some [.warn (lit "error extracting .ulp section")]
  | .unset => if w.stackNull then some [.warn (lit "error extracting .ulp section")] else none
  | .buf b =>
    match Metadata.parse ⟨b, w.alloc⟩ w.c0 with
    | .ub => none
    | .err _ => some [.warn (lit "error parsing the metadata file")]
    | .ok (q, _) => some (checkRest w (Check.patchApplied w q.patchId) p)

end Verif.Paint
