import Verif.InsnQueue.Model

/-!
Model of how libpulp writes into its own process when it interprets its instruction queue itself
(the gdb interface): `read_line`, `memory_protection_get`, `insn_interpret_write` and
`insnq_interpret_from_lib` of `lib/insn_queue.c`.  (`lib/ulp.c:383-414` and `lib/ulp.c:857-903` are
textual copies of the first two.)
-/

namespace Verif.SelfWrite

open Verif.InsnQueue (Queue Event Step step)

abbrev Bytes := List UInt8

/-- `LINE_MAX` of `<limits.h>`, the size of `line` in lib/insn_queue.c:231. -/
def lineMax : Nat := 2048

/-- `EMFILE` and `ENOMEM` of Linux. -/
def EMFILE : Nat := 24
def ENOMEM : Nat := 12

/-- Protection of a page: `PROT_READ`, `PROT_WRITE`, `PROT_EXEC`. -/
structure Prot where
  r : Bool
  w : Bool
  x : Bool
deriving DecidableEq, Repr, Inhabited

/-! ### reading `/proc/self/maps` -/

/-- Result of `read_line`. -/
inductive Line where
  /-- a line (or what is left of the file) of the given number of bytes was read -/
  | got (n : Nat)
  /-- -1 -/
  | error
deriving DecidableEq, Repr

/-- `read_line`, lib/insn_queue.c:188-220 (= lib/ulp.c:382-414): bytes are read one at a time into
`buf` (of `len` bytes) up to and including a newline.  Returns the result, the buffer and what is left
of the file.  `EINTR` and `EAGAIN` are retried by the C code and do not appear; other errors of
`read(2)` are not modelled. -/
def readLine : (fuel offset : Nat) → (buf file : Bytes) → Line × Bytes × Bytes
  | 0, _, buf, file => (.error, buf, file)
  | _ + 1, offset, buf, [] => (.got offset, buf, [])
  | fuel + 1, offset, buf, c :: file =>
    if c = 10 then (.got offset, buf.set offset c, file)
    else readLine fuel (offset + 1) (buf.set offset c) file

/-- Value of a hexadecimal digit, as `strtoul(3)` sees it. -/
def hexVal (b : UInt8) : Option Nat :=
  if 48 ≤ b ∧ b ≤ 57 then some (b.toNat - 48)
  else if 97 ≤ b ∧ b ≤ 102 then some (b.toNat - 87)
  else if 65 ≤ b ∧ b ≤ 70 then some (b.toNat - 55)
  else none

/-- `isspace(3)` in the C locale. -/
def isSpace (b : UInt8) : Bool := b = 32 ∨ (9 ≤ b ∧ b ≤ 13)

/-- The leading hexadecimal digits, accumulated in `acc`, and what follows them. -/
def hexRun : Nat → Bytes → Nat × Bytes
  | acc, [] => (acc, [])
  | acc, b :: bs => match hexVal b with
    | some d => hexRun (acc * 16 + d) bs
    | none => (acc, b :: bs)

/-- Sign of a number. -/
def sign : Bytes → Bool × Bytes
  | 45 :: s => (true, s)
  | 43 :: s => (false, s)
  | s => (false, s)

/-- The optional `0x` of a hexadecimal number. -/
def skip0x : Bytes → Bytes
  | 48 :: x :: d :: s =>
    if (x = 120 ∨ x = 88) ∧ (hexVal d).isSome then d :: s else 48 :: x :: d :: s
  | s => s

/-- `strtoul(s, &end, 16)`: the value and `end`.  Values that do not fit give `ULONG_MAX`. -/
def strtoul16 (s : Bytes) : Nat × Bytes :=
  let (neg, t) := sign (s.dropWhile isSpace)
  let t := skip0x t
  match t with
  | [] => (0, s)
  | b :: _ =>
    if (hexVal b).isNone then (0, s)
    else
      let (v, rest) := hexRun 0 t
      let v := if v ≥ 2 ^ 64 then 2 ^ 64 - 1 else if neg then (2 ^ 64 - v) % 2 ^ 64 else v
      (v, rest)

/-- One line against the address, lib/insn_queue.c:253-270 (= lib/ulp.c:881-898): `none` if the
address is not in the range of the line.  A read behind the end of the buffer would give 0; on the
lines the kernel writes there is none. -/
def parseLine (addr : Nat) (buf : Bytes) : Option Prot :=
  let (addr1, e) := strtoul16 buf
  let (addr2, e) := strtoul16 (e.drop 1)
  if addr < addr1 ∨ addr2 ≤ addr then none
  else some { r := e[1]? = some 114, w := e[2]? = some 119, x := e[3]? = some 120 }

/-- The loop of `memory_protection_get`, lib/insn_queue.c:246-271 (= lib/ulp.c:874-899); `none` is the
result -1.  Every round consumes a byte of the file, so its length is fuel enough. -/
def protLoop (addr : Nat) : (fuel : Nat) → (buf file : Bytes) → Option Prot
  | 0, _, _ => none
  | fuel + 1, buf, file =>
    match readLine lineMax 0 buf file with
    | (.error, _, _) => none
    | (.got 0, _, _) => none
    | (.got (_ + 1), buf, file) =>
      match parseLine addr buf with
      | none => protLoop addr fuel buf file
      | some p => some p

/-- `memory_protection_get` once the file is open, lib/insn_queue.c:228-275 (= lib/ulp.c:856-903).
`junk` is what the uninitialised `line` happens to hold. -/
def protGet (junk file : Bytes) (addr : Nat) : Option Prot :=
  protLoop addr (file.length + 1) junk file

/-! ### writing -/

/-- The process: its memory and the protection of its pages (by page number; `none`: not mapped). -/
structure St where
  mem : Mem
  pages : Nat → Option Prot

/-- What the system does during the interpretation: `i` is the number of the instruction, `j` the
number of the page of that instruction. -/
structure Sys where
  /-- `getpagesize()` -/
  pageSize : Nat
  /-- the text of `/proc/self/maps` -/
  maps : (Nat → Option Prot) → Bytes
  /-- `open("/proc/self/maps")` fails with this `errno` -/
  openErr : (i j : Nat) → Option Nat
  /-- what `errno` holds if a page is not found in the file (nothing sets it) -/
  oldErrno : (i j : Nat) → Nat
  /-- what the uninitialised line buffer holds -/
  junk : (i j : Nat) → Bytes
  /-- `mprotect` refuses to add the write permission, with this `errno` -/
  deny : (i j : Nat) → Option Nat
  /-- `mprotect` refuses to restore the protection, with this `errno` -/
  denyBack : (i j : Nat) → Option Nat

/-- Address of the `j`-th page of a write, lib/insn_queue.c:298, 304. -/
def pageAddr (ps a j : Nat) : Nat := (a / ps * ps + j * ps) % 2 ^ 64

/-- `num_pages`, lib/insn_queue.c:298-301, with 64-bit arithmetic: the page of the address behind the
last byte counts. -/
def numPages (ps a n : Nat) : Nat :=
  if a + n < 2 ^ 64 then (a + n) / ps - a / ps + 1
  else ((a + n - 2 ^ 64) / ps * ps + 2 ^ 64 - a / ps * ps) / ps + 1

/-- One call of `memory_protection_get`: the protection or `errno`. -/
def getProt (sys : Sys) (pages : Nat → Option Prot) (i j addr : Nat) : Except Nat Prot :=
  match sys.openErr i j with
  | some e => .error e
  | none => match protGet (sys.junk i j) (sys.maps pages) addr with
    | none => .error (sys.oldErrno i j)
    | some p => .ok p

/-- First loop of `insn_interpret_write`, lib/insn_queue.c:305-317: the protections of the pages from
number `j` on. -/
def getProts (sys : Sys) (pages : Nat → Option Prot) (i a : Nat) : (todo j : Nat) → Except Nat (List Prot)
  | 0, _ => .ok []
  | todo + 1, j =>
    match getProt sys pages i j (pageAddr sys.pageSize a j) with
    | .error e => .error e
    | .ok p => match getProts sys pages i a todo (j + 1) with
      | .error e => .error e
      | .ok ps => .ok (p :: ps)

/-- `mprotect` of one page. -/
def mprotect (pages : Nat → Option Prot) (page : Nat) (p : Prot) (refuse : Option Nat) :
    Except Nat (Nat → Option Prot) :=
  match pages page, refuse with
  | none, _ => .error ENOMEM
  | some _, some e => .error e
  | some _, none => .ok fun q => if q = page then some p else pages q

/-- Second and third loop, lib/insn_queue.c:319-325 and 334-340: `mprotect` the pages one after the
other, returning the `errno` of the first failure and the protections reached. -/
def setProts (ps a : Nat) (refuse : Nat → Option Nat) :
    (prots : List Prot) → (j : Nat) → (pages : Nat → Option Prot) → (Nat → Option Prot) × Option Nat
  | [], _, pages => (pages, none)
  | p :: prots, j, pages =>
    match mprotect pages (pageAddr ps a j / ps) p (refuse j) with
    | .error e => (pages, some e)
    | .ok pages => setProts ps a refuse prots (j + 1) pages

/-- The rest of `insn_interpret_write` once the protections are known, lib/insn_queue.c:319-341.  The
read back after the write only produces a message and is left out. -/
def writeWith (sys : Sys) (i : Nat) (s : St) (a : Nat) (bytes : Bytes) (prots : List Prot) :
    St × Option Nat :=
  let r1 := setProts sys.pageSize a (sys.deny i) (prots.map fun p => { p with w := true }) 0 s.pages
  match r1.2 with
  | some e => ({ s with pages := r1.1 }, some e)
  | none =>
    let r2 := setProts sys.pageSize a (sys.denyBack i) prots 0 r1.1
    ({ mem := s.mem.store a bytes, pages := r2.1 }, r2.2)

/-- `insn_interpret_write`, lib/insn_queue.c:288-342: the state reached and the `errno` returned, if
any (`none`: the size of the instruction is returned). -/
def writeInsn (sys : Sys) (i : Nat) (s : St) (a : Nat) (bytes : Bytes) : St × Option Nat :=
  match getProts sys s.pages i a (numPages sys.pageSize a bytes.length) 0 with
  | .error e => (s, some e)
  | .ok prots => writeWith sys i s a bytes prots

/-- Verdict of the interpreter: `ok` is 0; `oob` a read outside of the queue buffer. -/
abbrev Verdict := Verif.InsnQueue.Verdict

/-- What an instruction does to the process and the number added to the program counter: the size of
the instruction or, for a write that failed, the `errno` that `insn_interpret_write` returned
(common/insn_queue.c:106, lib/insn_queue.c:316, 324, 339). -/
def exec (sys : Sys) (i : Nat) (s : St) (adv : Int) : Option Event → St × Int
  | some (.write a bytes) => match writeInsn sys i s a bytes with
    | (s, none) => (s, adv)
    | (s, some e) => (s, e)
  | _ => (s, adv)

/-- The loop of `insnq_interpret`, common/insn_queue.c:103-115, with the writer of libpulp.  Decoding is
that of `Verif.InsnQueue.step`, which counts a payload that does not lie in the buffer as `oob` also
where the write would have failed before reading it. -/
def runFrom (sys : Sys) (buf : Mem) (size : Nat) : (left i : Nat) → (pc : Int) → St → St × Verdict
  | 0, _, pc, s => (s, if pc = size then .ok else .einsnq)
  | left + 1, i, pc, s =>
    match step buf pc none with
    | .oob => (s, .oob)
    | .invalid => (s, .einsnq)
    | .next ev adv =>
      runFrom sys buf size left (i + 1) (pc + (exec sys i s adv ev).2) (exec sys i s adv ev).1

/-- `insnq_interpret_from_lib`, lib/insn_queue.c:352-365: the queue is interpreted and emptied whatever
the outcome. -/
def interpretFromLib (sys : Sys) (q : Queue) (s : St) : St × Queue × Verdict :=
  match runFrom sys q.buf q.size q.num 0 0 s with
  | (s, v) => (s, { q with buf := fun _ => 0, num := 0, size := 0 }, v)

end Verif.SelfWrite
