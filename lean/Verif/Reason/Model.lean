import Verif.Base.Err
import Verif.MsgQueue.Model
import Verif.Text.Model

/-!
# What libpulp writes to its log when something goes wrong

`libpulp_errx`, `set_libpulp_error_state_with_reason`, `libpulp_assert` and `libpulp_exit` (lib/error.c) put libpulp into
an error state and log why; `WARN` and `DEBUG` (`ulp_warn`, `ulp_debug`, lib/msg_queue.c) only log.

What a variadic function finds when it is called is a sequence of words, its variable arguments followed by whatever
registers and stack held.  The first two functions above pass their `va_list` on to `msgq_push`, which takes a format and
*arguments*, instead of to `msgq_vpush`, which takes a `va_list`; so what a `va_list` is in memory matters here.

Simplifications: the conversions `%s`, `%d` and `%%` are modelled, other formats have no result; addresses are unbounded;
messages are not truncated (`MsgQueue.push` drops those that are too long for the ring, as the code does).
-/

namespace Verif.Reason

open Verif.MsgQueue

/-- The two architectures that libpulp supports. -/
inductive Arch where
  | x86_64
  | powerpc64le
deriving DecidableEq

/-- The bytes of a string literal. -/
def lit (s : String) : Str := s.toUTF8.toList

/-- The pieces of a format. -/
inductive Piece where
  | byte (c : UInt8)
  | str
  | dec
deriving DecidableEq

/-- `vsnprintf`'s reading of a format; `none` if it has a conversion that is not modelled. -/
def pieces : Str → Option (List Piece)
  | [] => some []
  | c :: s =>
    if c = 37 then
      match s with
      | [] => none
      | d :: s =>
        if d = 115 then (pieces s).map (.str :: ·)
        else if d = 100 then (pieces s).map (.dec :: ·)
        else if d = 37 then (pieces s).map (.byte 37 :: ·)
        else none
    else (pieces s).map (.byte c :: ·)

/-- The C string at an address. -/
def At (mem : Nat → UInt8) (a : Nat) (s : Str) : Prop :=
  (∀ i (h : i < s.length), mem (a + i) = s[i] ∧ s[i] ≠ 0) ∧ mem (a + s.length) = 0

/-- `%d` of the lower half of a word. -/
def decimal (w : Nat) : Str :=
  let v := w % 2 ^ 32
  if v < 2 ^ 31 then Text.printDec v else 45 :: Text.printDec (2 ^ 32 - v)

/-- What `vsnprintf` writes for pieces of a format, given the words that `va_arg` fetches.  There is no result if a `%s`
meets a word that is not the address of a string. -/
inductive Prints (mem : Nat → UInt8) : List Piece → (Nat → Nat) → Str → Prop where
  | nil {w} : Prints mem [] w []
  | byte {c ps w out} : Prints mem ps w out → Prints mem (.byte c :: ps) w (c :: out)
  | str {ps w s out} : At mem (w 0) s → Prints mem ps (fun k => w (k + 1)) out → Prints mem (.str :: ps) w (s ++ out)
  | dec {ps w out} : Prints mem ps (fun k => w (k + 1)) out → Prints mem (.dec :: ps) w (decimal (w 0) ++ out)

/-- What a variadic function of libpulp finds and has: memory, its variable arguments `args`, the value of `args` in C that
is handed on (`va`), and what registers and stack hold behind the first variable argument when it calls another. -/
structure Ctx where
  mem : Nat → UInt8
  va : Nat
  args : Nat → Nat
  left : Nat → Nat

/-- What `va_start` leaves in memory, for a function with five named arguments (lib/error.c:61-62, 88-89).  On x86-64 a
`va_list` is an array of one structure, so that a pointer to it is passed; its first member is the offset (of four bytes)
of the next argument in the area in which registers were saved, here 5 * 8.  On POWER a `va_list` is the address of the
next argument in the area of parameters, whose words are little-endian. -/
def Started : Arch → Ctx → Prop
  | .x86_64, c => c.mem c.va = 40 ∧ c.mem (c.va + 1) = 0 ∧ c.mem (c.va + 2) = 0 ∧ c.mem (c.va + 3) = 0
  | .powerpc64le, c => ∀ k j, j < 8 → c.mem (c.va + 8 * k + j) = UInt8.ofNat (c.args k / 2 ^ (8 * j))

/-- The words that `msgq_push(fmt, args)` finds as its arguments when it is given a `va_list`, lib/error.c:70 and 95. -/
def Ctx.mistaken (c : Ctx) : Nat → Nat
  | 0 => c.va
  | k + 1 => c.left k

/-- A message is formatted and pushed: `msgq_push` and `msgq_vpush`, lib/msg_queue.c:101-131. -/
structure Pushes (N fuel : Nat) (mem : Nat → UInt8) (q : MsgQ) (fmt : Str) (words : Nat → Nat) (q' : MsgQ) (ps : List Piece)
    (m : Str) : Prop where
  format : pieces fmt = some ps
  text : Prints mem ps words m
  pushed : push N fuel q m = .ok q'

/-- The arguments that are known by name. -/
def named (l : List Nat) (k : Nat) : Nat := l.getD k 0

/-- The format of lib/error.c:68. -/
def reasonFmt : Str := lit "In file = %s, function = %s, line = %d, error state %d: "

/-- The format of lib/error.c:93. -/
def errxFmt : Str := lit "In file = %s, function = %s, line = %d: errx : %d ;; "

/-- What the log and the error state are, and which two messages were pushed. -/
structure After where
  q : MsgQ
  state : Err
  first : Str
  second : Str

/-- `set_libpulp_error_state_with_reason_func`, lib/error.c:60-74. -/
def Reasoned (N fuel : Nat) (c : Ctx) (q : MsgQ) (file func line state : Nat) (fmt : Str) (r : After) : Prop :=
  ∃ q1 ps1 ps2, Pushes N fuel c.mem q reasonFmt (named [file, func, line, state]) q1 ps1 r.first ∧
    Pushes N fuel c.mem q1 fmt c.mistaken r.q ps2 r.second ∧ r.state = state

/-- `libpulp_errx_func`, lib/error.c:87-100. -/
def Errx (N fuel : Nat) (c : Ctx) (q : MsgQ) (file func line eval : Nat) (fmt : Str) (r : After) : Prop :=
  ∃ q1 ps1 ps2, Pushes N fuel c.mem q errxFmt (named [file, func, line, eval]) q1 ps1 r.first ∧
    Pushes N fuel c.mem q1 fmt c.mistaken r.q ps2 r.second ∧ r.state = EUNKNOWN

/-- `ulp_warn` and `ulp_debug`, lib/msg_queue.c:140-178: `stamp` is what `strftime` wrote, nothing if it is empty.  The error
state stays. -/
def Warned (N fuel : Nat) (c : Ctx) (q : MsgQ) (state : Err) (stamp fmt : Str) (r : After) : Prop :=
  ∃ q1 ps, (if stamp = [] then q1 = q else push N fuel q stamp = .ok q1) ∧ r.first = stamp ∧
    Pushes N fuel c.mem q1 fmt c.args r.q ps r.second ∧ r.state = state

end Verif.Reason
