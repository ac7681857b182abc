/-!
Model of libpulp's in-process message log: `lib/msg_queue.c`, `include/msg_queue.h`,
and of its reader in `tools/messages.c`.
-/

namespace Verif.MsgQueue

/-- `struct msg_queue`, include/msg_queue.h:63-77.  The buffer is a total function of the position;
only positions `< N` belong to the C array, and every access of the model outside of them is the
explicit outcome `Outcome.outOfBounds`.  `N` stands for `MSGQ_BUFFER_MAX` (2 MiB,
include/msg_queue.h:28); the model is parametric in it.  `distance` is a C `int`, kept as an
unbounded integer. -/
structure MsgQ where
  buf : Nat → UInt8
  top : Nat
  bottom : Nat
  distance : Int

/-- The zero-initialised global `__ulp_msg_queue`, lib/msg_queue.c:33. -/
def init : MsgQ := { buf := fun _ => 0, top := 0, bottom := 0, distance := 0 }

/-- Result of running C code: a value, an access outside of the array, or not finished within the
given number of loop iterations. -/
inductive Outcome (α : Type) where
  | ok (a : α)
  | outOfBounds
  | running
deriving Repr, DecidableEq

/-- `strlen(&buffer[pos])` (lib/msg_queue.c:70) with `room = N - pos` bytes left in the array;
`none` if the scan runs off the array. -/
def strlen (buf : Nat → UInt8) (pos : Nat) : (room : Nat) → Option Nat
  | 0 => none
  | room + 1 => if buf pos = 0 then some 0 else (strlen buf (pos + 1) room).map (· + 1)

/-- The inner loop lib/msg_queue.c:76-79.  Returns the new `bottom` and `travel`. -/
def skipNuls (N : Nat) (buf : Nat → UInt8) : (fuel : Nat) → (bottom travel : Nat) →
    Outcome (Nat × Nat)
  | 0, _, _ => .running
  | fuel + 1, bottom, travel =>
    if N ≤ bottom then .outOfBounds
    else if buf bottom = 0 then skipNuls N buf fuel ((bottom + 1) % N) (travel + 1)
    else .ok (bottom, travel)

/-- The loop condition `distance + msg_size >= MSGQ_BUFFER_MAX` of lib/msg_queue.c:69; `msg_size` is
a `size_t`, so the sum is computed modulo 2^64. -/
def tooFull (N : Nat) (distance : Int) (size : Nat) : Bool :=
  decide ((N : Int) ≤ (distance + size) % (2 ^ 64 : Int))

/-- The eviction loop lib/msg_queue.c:69-82.  Returns the new `bottom` and `distance`. -/
def evict (N : Nat) (buf : Nat → UInt8) (size : Nat) : (fuel : Nat) → (bottom : Nat) →
    (distance : Int) → Outcome (Nat × Int)
  | 0, _, _ => .running
  | fuel + 1, bottom, distance =>
    if tooFull N distance size then
      if N ≤ bottom then .outOfBounds
      else match strlen buf bottom (N - bottom) with
      | none => .outOfBounds
      | some len =>
        match skipNuls N buf fuel ((bottom + (len + 1)) % N) (len + 1) with
        | .ok (bottom', travel) => evict N buf size fuel bottom' (distance - travel)
        | .outOfBounds => .outOfBounds
        | .running => .running
    else .ok (bottom, distance)

/-- `memset(&buffer[pos], 0, n)`, lib/msg_queue.c:58. -/
def clear (buf : Nat → UInt8) (pos n : Nat) : Nat → UInt8 :=
  fun i => if pos ≤ i ∧ i < pos + n then 0 else buf i

/-- `memcpy(&buffer[pos], bytes, len)`, lib/msg_queue.c:85. -/
def blit (buf : Nat → UInt8) (pos : Nat) (bytes : List UInt8) : Nat → UInt8 :=
  fun i => if pos ≤ i ∧ i < pos + bytes.length then bytes.getD (i - pos) 0 else buf i

/-- `msgq_strpush(msg, msg_size)`, lib/msg_queue.c:37-94.  `msg` is the C string without its
terminator; `msg_size = strlen(msg) + 1` as at the call sites lib/msg_queue.c:110,128,152,172.
`fuel` bounds the number of iterations of each loop. -/
def push (N fuel : Nat) (q : MsgQ) (msg : List UInt8) : Outcome MsgQ :=
  let size := msg.length + 1
  if msg = [] ∨ N < size then .ok q
  else
    let wrap := decide (N ≤ q.top + size)
    -- memset(&buffer[top], '\0', MSGQ_BUFFER_MAX - top)
    if wrap ∧ N < q.top then .outOfBounds
    else
      let buf := if wrap then clear q.buf q.top (N - q.top) else q.buf
      let distance : Int := if wrap then q.distance + (N - q.top : Nat) else q.distance
      let top := if wrap then 0 else q.top
      match evict N buf size fuel q.bottom distance with
      | .ok (bottom, distance) =>
        -- memcpy(&buffer[top], msg, msg_size)
        if N < top + size then .outOfBounds
        else .ok { buf := blit buf top (msg ++ [0])
                   top := (top + size) % N
                   bottom := bottom
                   distance := distance + size }
      | .outOfBounds => .outOfBounds
      | .running => .running

/-- A history of pushes. -/
def pushAll (N fuel : Nat) : MsgQ → List (List UInt8) → Outcome MsgQ
  | q, [] => .ok q
  | q, m :: ms => match push N fuel q m with
    | .ok q' => pushAll N fuel q' ms
    | .outOfBounds => .outOfBounds
    | .running => .running

/-- The bytes printed by `msgq_print`, tools/messages.c:59-70: `distance` bytes starting at
`bottom`, modulo the buffer size. -/
def printFrom (N : Nat) (buf : Nat → UInt8) : (bottom distance : Nat) → List UInt8
  | _, 0 => []
  | bottom, d + 1 => buf bottom :: printFrom N buf ((bottom + 1) % N) d

/-- `msgq_print`, tools/messages.c:59-70 (a non-positive distance prints nothing). -/
def printed (N : Nat) (q : MsgQ) : List UInt8 := printFrom N q.buf q.bottom q.distance.toNat

end Verif.MsgQueue
