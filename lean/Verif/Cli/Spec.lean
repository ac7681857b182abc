import Verif.Cli.Model

/-!
What a command line says, without reference to how argp or `ulp` read it.
-/

namespace Verif.Cli.Spec

/-- A piece of a command line: a long option, possibly abbreviated, with its value joined by `=` or as the next word; short
options written together, the last of which may have a value, joined or as the next word; another word. -/
inductive Item where
  | long (name : Str) (o : Opt) (v : Option Str) (joined : Bool)
  | short (flags : List Opt) (last : Option (Opt × Str × Bool))
  | word (w : Str)

/-- The words that make up a piece. -/
def Item.render : Item → List Str
  | .long n _ none _ => [[45, 45] ++ n]
  | .long n _ (some v) true => [[45, 45] ++ n ++ [61] ++ v]
  | .long n _ (some v) false => [[45, 45] ++ n, v]
  | .short fs none => [[45] ++ fs.filterMap (·.short)]
  | .short fs (some (o, v, true)) => [[45] ++ fs.filterMap (·.short) ++ o.short.toList ++ v]
  | .short fs (some (o, v, false)) => [[45] ++ fs.filterMap (·.short) ++ o.short.toList, v]
  | .word w => [w]

/-- The options a piece sets. -/
def Item.settings : Item → List (Key × Option Str)
  | .long _ o v _ => [(o.key, v)]
  | .short fs none => fs.map fun o => (o.key, none)
  | .short fs (some (o, v, _)) => (fs.map fun o => (o.key, none)) ++ [(o.key, some v)]
  | .word _ => []

def Item.words : Item → List Str
  | .word w => [w]
  | _ => []

/-- Option values that are words of their own. -/
def Item.values : Item → List Str
  | .long _ _ (some v) false => [v]
  | .short _ (some (_, v, false)) => [v]
  | _ => []

/-- `n` names option `o` of the table: it is its name, or a beginning of no other name. -/
def Names (t : List Opt) (n : Str) (o : Opt) : Prop :=
  n = o.long ∨ (n <+: o.long ∧ ∀ o' ∈ t, n <+: o'.long → o' = o)

/-- A piece is well formed with respect to a table of options. -/
def Item.Ok (t : List Opt) : Item → Prop
  | .long n o v j =>
    o ∈ t ∧ n ≠ [] ∧ Names t n o ∧
    ((o.arg = .no ∧ v = none) ∨ (o.arg = .required ∧ v.isSome) ∨ (o.arg = .optional ∧ (v.isSome → j = true)))
  | .short fs last =>
    (fs ≠ [] ∨ last.isSome) ∧ (∀ o ∈ fs, o ∈ t ∧ o.short.isSome ∧ o.arg = .no) ∧
    (∀ o v j, last = some (o, v, j) → o ∈ t ∧ o.short.isSome ∧ o.arg = .required ∧ (j = true → v ≠ []))
  | .word w => w = [45] ∨ w.head? ≠ some 45

/-- The words begin with a wrong option: one that names no option or more than one, one with a value it does not take, or one
without the value it needs. -/
inductive Wrong (t : List Opt) : List Str → Prop
  | unknown (n v : Str) (rest : List Str) (hv : v = [] ∨ v.head? = some 61) (hne : n ≠ []) (h61 : 61 ∉ n)
      (h : ∀ o ∈ t, ¬ Names t n o) : Wrong t (([45, 45] ++ n ++ v) :: rest)
  | extra (n v : Str) (o : Opt) (rest : List Str) (ho : o ∈ t) (hn : Names t n o) (ha : o.arg = .no) :
      Wrong t (([45, 45] ++ n ++ [61] ++ v) :: rest)
  | missing (n : Str) (o : Opt) (hne : n ≠ []) (ho : o ∈ t) (hn : Names t n o) (ha : o.arg = .required) :
      Wrong t [[45, 45] ++ n]
  | short (fs : List Opt) (c : UInt8) (cs : Str) (rest : List Str) (hf : ∀ o ∈ fs, o ∈ t ∧ o.short.isSome ∧ o.arg = .no)
      (hc : ∀ o ∈ t, o.short ≠ some c) (hd : c ≠ 45) : Wrong t (([45] ++ fs.filterMap (·.short) ++ c :: cs) :: rest)
  | shortMissing (fs : List Opt) (o : Opt) (hf : ∀ o ∈ fs, o ∈ t ∧ o.short.isSome ∧ o.arg = .no) (ho : o ∈ t)
      (hs : o.short.isSome) (ha : o.arg = .required) : Wrong t [[45] ++ fs.filterMap (·.short) ++ o.short.toList]

/-- A command line after the name of the program; `rest`: what follows `--`, if there is one. -/
structure Line where
  items : List Item
  rest : Option (List Str)

def Line.render (l : Line) : List Str :=
  l.items.flatMap Item.render ++ (match l.rest with | none => [] | some r => [45, 45] :: r)

def Line.settings (l : Line) : List (Key × Option Str) := l.items.flatMap Item.settings
def Line.words (l : Line) : List Str := l.items.flatMap Item.words ++ l.rest.getD []
def Line.Ok (t : List Opt) (l : Line) : Prop := ∀ i ∈ l.items, i.Ok t

/-- The values given for an option, in order. -/
def values (s : List (Key × Option Str)) (k : Key) : List Str := s.filterMap fun p => if p.1 = k then p.2 else none

def given (s : List (Key × Option Str)) (k : Key) : Bool := s.any fun p => p.1 == k

/-- The library: the last of `--target` and of the base names given to `--revert-all`. -/
def libraries (s : List (Key × Option Str)) : List Str :=
  s.filterMap fun p => if p.1 = .target then p.2 else if p.1 = .revertAll then p.2.map getBasename else none

/-- What the options ask for: of options given more than once the last counts. -/
def wanted (s : List (Key × Option Str)) (arg : Option Str) : Arguments where
  arg := arg
  livepatch := (values s .livepatch).getLast?
  library := (libraries s).getLast?
  metadata := (values s .output).getLast?
  process := (values s .process).getLast?
  user := (values s .user).getLast?
  prefix_ := (values s .root).getLast?
  debuginfo := (values s .debuginfo).getLast?
  retries := ((values s .retries).getLast?.map atoi).getD 1
  quiet := given s .quiet
  verbose := given s .verbose
  buildid := given s .buildid
  revert := given s .revert
  noThreads := given s .noThreads
  recursive := given s .recursive
  noSummary := given s .noSummary
  onlyPatched := given s .onlyPatched
  noSeccomp := given s .noSeccomp
  checkStack := given s .checkStack
  color := (values s .color).getLast?
  timeout := ((values s .timeout).getLast?.map fun v => (strtol v).toNat).getD 200

/-- The numbers are numbers. -/
def Numbers (s : List (Key × Option Str)) : Prop :=
  (∀ v ∈ values s .retries, 1 ≤ atoi v) ∧ (∀ v ∈ values s .timeout, v ≠ [] ∧ ∀ c ∈ v, 48 ≤ c ∧ c ≤ 57)

/-- What each command needs. -/
def Rules (s : List (Key × Option Str)) (args : List Str) : Cmd → Prop
  | .patches => args = []
  | .messages => given s .process
  | .trigger =>
    (match (libraries s).getLast? with
     | some lib => given s .revert = false ∧ lib.length ≤ 256
     | none => args ≠ []) ∧
    ∀ x ∈ args, x.length ≤ 256
  | .post | .dump => args ≠ [] ∧ ∀ x ∈ args, x.length ≤ 256
  | .check | .packer | .extract | .livepatchable | .setPatchable => args ≠ []

/-- The line is a correct use of command `c`. -/
def Correct (s : List (Key × Option Str)) (words : List Str) (c : Cmd) : Prop :=
  Numbers s ∧ ¬ (given s .quiet ∧ given s .verbose) ∧ ∃ args, words = c.name :: args ∧ args.length ≤ 1 ∧ Rules s args c

/-- No option asks for information only. -/
def NoInfo (s : List (Key × Option Str)) : Prop :=
  ∀ p ∈ s, p.1 ≠ .help ∧ p.1 ≠ .usage ∧ p.1 ≠ .version

/-- The word is the name of a command. -/
def IsCommand (w : Str) : Prop := ∃ c : Cmd, w = c.name

/-- `c` is the first command named among the words. -/
def FirstCommand (ws : List Str) (c : Cmd) : Prop :=
  ∃ pre post, ws = pre ++ c.name :: post ∧ ∀ w ∈ pre, ¬ IsCommand w

/-- The commands that attach to processes. -/
def Attaches (c : Cmd) : Prop := c = .patches ∨ c = .trigger ∨ c = .check ∨ c = .messages ∨ c = .setPatchable

/-- Attaching to processes is possible: the user is root, there is no Yama, or its level is 0. -/
def MayAttach (y : Sys) : Prop := y.root = true ∨ y.scope = none ∨ y.scope = some (b "0\n")

/-- The last `n` decimal digits of `v`. -/
def dec : Nat → Nat → Str
  | 0, _ => []
  | n + 1, v => dec n (v / 10) ++ [(48 + v % 10).toUInt8]

/-! ### /proc/self/status -/

def nibble (n : Nat) : UInt8 := if n < 10 then (48 + n).toUInt8 else (87 + n).toUInt8

/-- The last `n` hexadecimal digits of `v`. -/
def hex : Nat → Nat → Str
  | 0, _ => []
  | n + 1, v => hex n (v / 16) ++ [nibble (v % 16)]

/-- A line: a name, a tab, a text. -/
def field (f : Str × Str) : Str := f.1 ++ [9] ++ f.2 ++ [10]

/-- The status of a process with permitted capabilities `caps`: the field `CapPrm:` between other fields. -/
def statusFile (before : List (Str × Str)) (caps : Nat) (after : List (Str × Str)) : Str :=
  before.flatMap field ++ field (b "CapPrm:", hex 16 caps) ++ after.flatMap field

/-- Another field: its name is a word, its text is on one line. -/
def OtherField (f : Str × Str) : Prop :=
  f.1 ≠ [] ∧ (∀ c ∈ f.1, c ≠ 32 ∧ c ≠ 9 ∧ c ≠ 10) ∧ f.1 ≠ b "CapPrm:" ∧ 10 ∉ f.2

end Verif.Cli.Spec
