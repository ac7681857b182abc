import Verif.MsgQueue.Model
import Verif.Text.Model

/-!
Model of `ulp messages` (tools/messages.c): which process it looks at, how it reads the message queue of libpulp while other tools make libpulp write to it,
and what it prints.
-/

namespace Verif.Messages

open Verif.MsgQueue (MsgQ Outcome push init)

/-- `get_msgq_address`, tools/messages.c:44-58: the first nonzero address in the list of objects that begins with libpulp; 0 if there is none. -/
def msgqAddress : List Nat → Nat
  | [] => 0
  | a :: as => if a ≠ 0 then a else msgqAddress as

/-- The process that `run_messages` looks at, tools/messages.c:146-153; `none`: the argument is refused. -/
def target (arg : Option Str) : Option Int := if Text.isnumber arg then some (Text.atoi (arg.getD [])) else none

/-- `struct msg_queue` as the tool has read it, include/msg_queue.h:63-77: any contents. `bottom` and `distance` are C `int`s. -/
structure View where
  buf : Nat → UInt8
  bottom : Int
  distance : Int

/-- The loop of `msgq_print`, tools/messages.c:66-70; `none`: a byte outside of the array is read. The remainder in C has the sign of the first operand. -/
def printLoop (N : Nat) (buf : Nat → UInt8) : (bottom : Int) → (distance : Nat) → Option (List UInt8)
  | _, 0 => some []
  | bottom, d + 1 =>
    if bottom < 0 ∨ (N : Int) ≤ bottom then none
    else (printLoop N buf ((bottom + 1).tmod N) d).map (buf bottom.toNat :: ·)

/-- `msgq_print`, tools/messages.c:60-71: nothing if the distance is not positive. -/
def msgqPrint (N : Nat) (v : View) : Option (List UInt8) := printLoop N v.buf v.bottom v.distance.toNat

/-- The queue as a row of cells, in the order of the `struct`: the bytes of the buffer, then `top`, `bottom` and `distance`. -/
def cell (N : Nat) (q : MsgQ) (i : Nat) : Int :=
  if i < N then (q.buf i).toNat else if i = N then q.top else if i = N + 1 then q.bottom else q.distance

/-- What the tool has in its copy after reading all cells. -/
def view (N : Nat) (cells : List Int) : View :=
  { buf := fun i => UInt8.ofNat (cells.getD i 0).toNat, bottom := cells.getD (N + 1) 0, distance := cells.getD (N + 2) 0 }

/-- Where a tool is. A writer is any tool that runs functions of libpulp, which log messages: it has the main thread attached (`C133`) and the function runs in
that thread. While a message is being written (`busy`) the queue is in any state. A reader is `ulp messages`: it reads the queue
piece by piece with the main thread attached; `shown` is its exit status and output. -/
inductive Phase where
  | out
  | idle
  | busy (q : MsgQ) (m : Str)
  | reading (cells : List Int)
  | failed
  | shown (status : Nat) (output : Option (List UInt8))

/-- The queue of a process, the messages logged so far, who has the main thread attached, and the tools. -/
structure Conf where
  q : MsgQ
  log : List Str
  tracer : Option Nat
  phase : Nat → Phase

/-- Change one value. -/
def upd {α : Type} (f : Nat → α) (k : Nat) (v : α) : Nat → α := fun i => if i = k then v else f i

/-- Steps of tools at work on a process that has started (libpulp's own messages at its start are not modelled). -/
inductive Step (N fuel : Nat) : Conf → Conf → Prop
  | enter (c : Conf) (i : Nat) : c.phase i = .out → c.tracer = none →
      Step N fuel c { c with tracer := some i, phase := upd c.phase i .idle }
  /-- `msgq_strpush` begins, lib/msg_queue.c:37-94. -/
  | begin (c : Conf) (i : Nat) (m : Str) : c.phase i = .idle →
      Step N fuel c { c with phase := upd c.phase i (.busy c.q m) }
  | scribble (c : Conf) (i : Nat) (q : MsgQ) (m : Str) (q' : MsgQ) : c.phase i = .busy q m → Step N fuel c { c with q := q' }
  | commit (c : Conf) (i : Nat) (q : MsgQ) (m : Str) (q' : MsgQ) : c.phase i = .busy q m → push N fuel q m = .ok q' →
      Step N fuel c { c with q := q', log := c.log ++ [m], phase := upd c.phase i .idle }
  | leave (c : Conf) (i : Nat) : c.phase i = .idle → Step N fuel c { c with tracer := none, phase := upd c.phase i .out }
  /-- `attach` succeeds, tools/messages.c:110-113. -/
  | attach (c : Conf) (i : Nat) : c.phase i = .out → c.tracer = none →
      Step N fuel c { c with tracer := some i, phase := upd c.phase i (.reading []) }
  /-- There is no queue, or `attach` fails, tools/messages.c:105-113, or what comes before it does, :146-161. -/
  | refuse (c : Conf) (i : Nat) : c.phase i = .out → Step N fuel c { c with phase := upd c.phase i (.shown 1 (some [])) }
  /-- Some more of `read_memory`, tools/messages.c:115-116, tools/ptrace.c:241-289. -/
  | read (c : Conf) (i n : Nat) (cells : List Int) : c.phase i = .reading cells → cells.length + n ≤ N + 3 →
      Step N fuel c { c with phase := upd c.phase i (.reading (cells ++ (List.range' cells.length n).map (cell N c.q))) }
  | readFails (c : Conf) (i : Nat) (cells : List Int) : c.phase i = .reading cells → Step N fuel c { c with phase := upd c.phase i .failed }
  /-- `detach` and then the output, tools/messages.c:118-133. -/
  | detach (c : Conf) (i : Nat) (cells : List Int) : c.phase i = .reading cells → cells.length = N + 3 →
      Step N fuel c { c with tracer := none, phase := upd c.phase i (.shown 0 (msgqPrint N (view N cells))) }
  /-- `detach` after `read_memory` failed, tools/messages.c:118-126. -/
  | detachFailed (c : Conf) (i : Nat) : c.phase i = .failed →
      Step N fuel c { c with tracer := none, phase := upd c.phase i (.shown 1 (some [])) }
  /-- `detach` fails, tools/messages.c:118-121: the thread stays attached until the tool exits. -/
  | stays (c : Conf) (i : Nat) : (c.phase i = .failed ∨ ∃ cells, c.phase i = .reading cells) →
      Step N fuel c { c with phase := upd c.phase i (.shown 1 (some [])) }
  /-- The tool exits. -/
  | exit (c : Conf) (i st : Nat) (o : Option (List UInt8)) : c.phase i = .shown st o →
      Step N fuel c { c with tracer := if c.tracer = some i then none else c.tracer, phase := upd c.phase i .out }

/-- Any number of steps. -/
inductive Steps (N fuel : Nat) (c : Conf) : Conf → Prop
  | refl : Steps N fuel c c
  | tail {d e : Conf} : Steps N fuel c d → Step N fuel d e → Steps N fuel c e

/-- A process that has started, with the messages of its start; no tool at work. -/
def start (q : MsgQ) (log : List Str) : Conf := ⟨q, log, none, fun _ => .out⟩

end Verif.Messages
