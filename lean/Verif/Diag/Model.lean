import Verif.Dsc.Model

/-!
Model of the messages of `ulp packer` about a description file (tools/packer.c): where it says the problem is, and what it prints.
`Verif.Dsc` has the same code without the places.
-/

namespace Verif.Diag

open Verif.Extract (SoInfo Sym getSymbol)
open Verif.Metadata (Ref)
open Verif.Dsc

/-- ASCII text. -/
def lit (s : String) : Str := s.toUTF8.toList

/-- The reason given to `parse_error`, tools/packer.c:485-860. -/
inductive Why where
  | empty
  | container
  | containerDir
  | containerFormat
  | dependency
  | duplicate
  | target
  | targetDir
  | targetFormat
  | noTarget
  /-- The symbol is not in that file. -/
  | missing (symbol path : Str)
  | expected
  | colon
  /-- The NULL pointer was used; `segfault_handler`, tools/packer.c:463-472. -/
  | crash
deriving DecidableEq, Repr

/-- The text of the reason; `file` is the name of the description. -/
def Why.text (file : Str) : Why → Str
  | .empty => lit "Unable to parse description file: is empty"
  | .container => lit "livepatch container file not found"
  | .containerDir => lit "livepatch container path is not a file"
  | .containerFormat => lit "Unsupported container format. Check if it is a valid ELF or JSON."
  | .dependency => lit "unable to add dependency to livepatch metadata."
  | .duplicate => lit "duplicated target object. Libpulp patches 1 shared object per patch\n"
  | .target => lit "unable to open target file"
  | .targetDir => lit "target path is not a file"
  | .targetFormat => lit "Unsupported target format. Check if it is a valid ELF or JSON."
  | .noTarget => lit "patch description does not define shared object for patching."
  | .missing s p => lit "symbol " ++ s ++ lit " is not present in " ++ p
  | .expected => lit "expected target variable or offset"
  | .colon => lit "expected ':' token and target variable or offset"
  | .crash => lit "internal error parsing " ++ file ++ lit ": received SIGSEGV"

/-- Result of a piece of the packer: a value, a message with its place (line and column, from 1; `location_t`, tools/packer.c:360-364) and exit status 1,
or a memory error.  Memory is always granted; the numbers do not wrap. -/
inductive Res (α : Type) where
  | ok (a : α)
  | err (line col : Nat) (why : Why)
  | ub
deriving DecidableEq, Repr

instance : Monad Res where
  pure := .ok
  bind m f := match m with
    | .ok a => f a
    | .err l c w => .err l c w
    | .ub => .ub

/-- Opening a file and its information, tools/packer.c:597-608,618-627 and 689-712. -/
def openInfo (e : Env) (path : Str) (line col : Nat) (missing dir format : Why) : Res SoInfo :=
  match e.fs path with
  | none => .err line col missing
  | some f => if f.dir then .err line col dir else match f.info with
    | none => .err line col format
    | some i => .ok i

/-- The first loop, tools/packer.c:558-627; `n` is the number of lines read so far.  Gives the container, its path, the lines not read yet, and the number of those read. -/
def readContainer (e : Env) : Nat → List Str → Res (SoInfo × Str × List Str × Nat)
  | n, [] => .err (n + 1) 1 .empty
  | n, l :: ls =>
    if l.head? = some 10 ∨ l.head? = some 33 then readContainer e (n + 1) ls
    else do
      let path := e.livepatch.getD (chomp l)
      let i ← openInfo e path (n + 1) 1 .container .containerDir .containerFormat
      pure (i, path, ls, n + 1)

/-- The loop for dependencies, tools/packer.c:629-653. -/
def readDeps (e : Env) : Nat → List Str → List Bytes → Res (List Bytes × List Str × Nat)
  | n, [], acc => .ok (acc, [], n)
  | n, l :: ls, acc =>
    if l.head? = some 42 then
      match addDependency e ((chomp l).drop 1) with
      | .ok id => readDeps e (n + 1) ls (id :: acc)
      | _ => .err (n + 1) 1 .dependency
    else .ok (acc, l :: ls, n)

/-- A line starting with `#`, tools/packer.c:730-792; `s` is the rest of the line, `tpath` and `cpath` the paths of target and container. -/
def refLine (target container : SoInfo) (tpath cpath : Str) (line : Nat) (s : Str) : Res Ref :=
  let tls := (tlsMark s).1
  let third := (tlsMark s).2
  let col := if tls then 3 else 2
  match strchr third with
  | none => .err line col .crash
  | some (tname, rest) => match strchr rest with
    | none => match getSymbol target tname with
      | none => .err line col (.missing tname tpath)
      | some a => match getSymbol container rest with
        | none => .err line (col + tname.length + 1) (.missing rest cpath)
        | some b => .ok ⟨tname, rest, a.offset.toNat, b.offset.toNat, tls⟩
    | some (rname, rest) => match strchr rest with
      | none => .err line col .crash
      | some (a, b) => .ok ⟨tname, rname, strtol16 a, strtol16 b, tls⟩

/-- A line naming a function and its replacement, tools/packer.c:805-873; see `Verif.Dsc.funcLine` for the memory errors. -/
def funcLine (target container : SoInfo) (tpath cpath : Str) (line : Nat) (s : Str) : Res (Str × Str) :=
  if s = [] then .ub
  else if s.getLast? = some 58 then .err line s.length .expected
  else if s.head? = some 58 then .ub
  else
    let old := s.takeWhile (· != 58)
    let new := ((s.dropWhile (· != 58)).dropWhile (· == 58)).takeWhile (· != 58)
    match getSymbol target old with
    | none => .err line 1 (.missing old tpath)
    | some _ =>
      if new = [] then .err line 1 .colon
      else match getSymbol container new with
        | none => .err line (s.length - ((s.dropWhile (· != 58)).dropWhile (· == 58)).length + 1) (.missing new cpath)
        | some _ => .ok (old, new)

/-- One line of the main loop, tools/packer.c:655-884; `n` lines were read before it; `tpath` is the path of the target once there is one. -/
def entry (e : Env) (container : SoInfo) (cpath : Str) (n : Nat) (acc : Acc × Str) (l : Str) : Res (Acc × Str) :=
  if l.head? = some 10 ∨ l.head? = some 33 then .ok acc
  else if l.head? = some 64 then
    if acc.1.obj.isSome then .err (n + 1) 1 .duplicate
    else
      let path := e.target.getD ((chomp l).drop 1)
      if path.length ≥ pathMax then .ub
      else do
        let i ← openInfo e path (n + 1) 2 .target .targetDir .targetFormat
        pure ({ acc.1 with obj := some i }, path)
  else match acc.1.obj with
    | none => .err (n + 1) 1 .noTarget
    | some t =>
      if l.head? = some 35 then do
        let r ← refLine t container acc.2 cpath (n + 1) ((chomp l).drop 1)
        pure ({ acc.1 with refs := r :: acc.1.refs }, acc.2)
      else do
        let u ← funcLine t container acc.2 cpath (n + 1) (chomp l)
        pure ({ acc.1 with units := acc.1.units ++ [u] }, acc.2)

/-- The main loop. -/
def entries (e : Env) (container : SoInfo) (cpath : Str) : Nat → List Str → Acc × Str → Res Acc
  | _, [], acc => .ok acc.1
  | n, l :: ls, acc => do
    let acc ← entry e container cpath n acc l
    entries e container cpath (n + 1) ls acc

/-- `parse_description`, tools/packer.c:512-899, of a file with those lines. -/
def parseLines (e : Env) (ls : List Str) : Res (List Bytes × Acc) := do
  let (c, cpath, ls, n) ← readContainer e 0 ls
  let (deps, ls, n) ← readDeps e n ls []
  let acc ← entries e c cpath n ls (⟨none, [], []⟩, [])
  pure (deps, acc)

/-! ### `parse_error` -/

/-- What is printed: a change of the color of the terminal, or a character. -/
inductive Out where
  | bold | red | reset
  | char (c : UInt8)
deriving DecidableEq, Repr

/-- Characters. -/
def chars (s : Str) : List Out := s.map .char

/-- The loop for the part in red, tools/packer.c:422-435: what is printed, and what is left. -/
def redPart (colon : Bool) : Str → Str × Str
  | [] => ([], [])
  | c :: cs =>
    if c = 58 then (if colon then ([c], cs) else ([], c :: cs))
    else
      let (p, r) := redPart colon cs
      (if c ≠ 10 then c :: p else p, r)

/-- `parse_error`, tools/packer.c:378-460: `opened` is the description when it is opened again, `errno` the text if that fails.  `none`: the assertion fails. -/
def parseError (file : Str) (line col : Nat) (msg : Str) (opened : Option Bytes) (errno : Str) : Option (List Out) :=
  let head := [.bold] ++ chars (file ++ lit ":" ++ Text.printDec line ++ lit ":" ++ Text.printDec col ++ lit ": ") ++ [.red] ++ chars (lit "error: ") ++ [.reset] ++
    chars (msg ++ [10])
  match opened with
  | none => some (head ++ chars (lit "Error opening " ++ file ++ lit ": " ++ errno ++ [10]))
  | some content =>
    if line = 0 ∨ col = 0 then none
    else match (lines content)[line - 1]? with
      | none => some (head ++ chars (lit "File is empty or is a directory\n"))
      | some l =>
        let colon := l[col - 1]? == some 58
        let (p, r) := redPart colon (l.drop (col - 1))
        some (head ++ chars (l.take (col - 1)) ++ [.red] ++ chars p ++ [.reset] ++ chars (r.filter (· != 10)) ++ chars [10] ++
          chars (List.replicate (min (col - 1) l.length) 32) ++ [.red] ++ chars (94 :: List.replicate (p.length - 1) 126) ++ [.reset] ++ chars [10])

/-- All that `ulp packer` prints to its standard output about a description that it refuses: `content` is the description. -/
def complain (e : Env) (file content : Bytes) : Option (List Out) :=
  match parseLines e (lines content) with
  | .err line col why => parseError file line col (why.text file) (some content) []
  | _ => some []

end Verif.Diag
