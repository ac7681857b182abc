import Verif.Base.Err
import Verif.Base.Mem

/-!
Model of the instruction queue through which libpulp asks the `ulp` tool to write into the patched
process: `include/insn_queue.h`, `lib/insn_queue.c`, `common/insn_queue.c`, `tools/insn_queue.c`.
-/

namespace Verif.InsnQueue

/-- `INSN_BUFFER_MAX`, include/insn_queue.h:29. -/
def bufMax : Nat := 2 * 1024 * 1024

/-- `INSNQ_CURR_VERSION`, include/insn_queue.h:32. -/
def currVersion : Nat := 1

/-- `struct insn_queue`, include/insn_queue.h:43-59.  The C fields are `int`s; libpulp never makes
them negative and the model keeps them as naturals.  `buf` beyond `bufMax` does not exist in C: every
access of the model outside of the buffer is the explicit verdict `oob`. -/
structure Queue where
  version : Nat
  num : Nat
  size : Nat
  buf : Mem

/-- `__ulp_insn_queue`, lib/insn_queue.c:37 (zero-initialised but for the version). -/
def Queue.fresh : Queue := { version := currVersion, num := 0, size := 0, buf := fun _ => 0 }

/-- `align_to`, lib/insn_queue.c:39-44, on 32-bit ints. -/
def alignTo (val bytes : BitVec 32) : BitVec 32 :=
  let mask := bytes - 1
  (val + mask) &&& ~~~mask

/-- A request of libpulp: the two insert functions, lib/insn_queue.c:102 and :130. -/
inductive Req where
  | print (s : List UInt8)
  | write (addr : Nat) (bytes : List UInt8)
deriving DecidableEq, Repr

/-- Size of the instruction: lib/insn_queue.c:106-107 (header 4 bytes, string and NUL, aligned to 4)
and lib/insn_queue.c:134 (header 4, `n` 4, address 8, bytes, aligned to 8). -/
def Req.insnSize : Req → Nat
  | .print s => (alignTo (BitVec.ofNat 32 (4 + (s.length + 1))) 4).toNat
  | .write _ bytes => (alignTo (BitVec.ofNat 32 (16 + bytes.length)) 8).toNat

/-- Bytes stored for an instruction: lib/insn_queue.c:115-117 and :142-146, in the layout of
`struct ulp_insn`, `ulp_insn_print` and `ulp_insn_write` (include/insn_queue.h:83-117): one byte of
type, 24 bits of size, then the payload; x86-64/ppc64le little endian.  Padding is not written. -/
def Req.encode (r : Req) : List UInt8 :=
  match r with
  | .print s => [1] ++ le 3 r.insnSize ++ s ++ [0]
  | .write addr bytes => [2] ++ le 3 r.insnSize ++ le 4 bytes.length ++ le 8 addr ++ bytes

/-- `insnq_get_writable_area` followed by the stores of `insnq_insert_print`/`insnq_insert_write`,
lib/insn_queue.c:61-149; `none` where the C code gets a NULL pointer. -/
def insert? (q : Queue) (r : Req) : Option Queue :=
  if r.insnSize = 0 then none
  else if r.insnSize + q.size > bufMax then none
  else some { q with num := q.num + 1, size := q.size + r.insnSize,
                     buf := q.buf.store q.size r.encode }

/-- The library's state as far as the queue is concerned: queue and `__ulp_error_state`
(lib/error.c:40). -/
structure LibQ where
  q : Queue
  err : Err

/-- `insnq_insert_print` / `insnq_insert_write` with their error handling, lib/insn_queue.c:110-113,
137-140. -/
def insert (l : LibQ) (r : Req) : LibQ × Err :=
  match insert? l.q r with
  | none => ({ l with err := EINSNQ }, EINSNQ)
  | some q => ({ l with q := q }, ENONE)

/-- Inserting requests one after the other, stopping at the first refusal. -/
def insertAll? : Queue → List Req → Option Queue
  | q, [] => some q
  | q, r :: rs => match insert? q r with
    | none => none
    | some q' => insertAll? q' rs

/-- `insnq_ensure_emptiness`, lib/insn_queue.c:163-177: returns 1 and sets the error state if the
queue is not empty. -/
def ensureEmptiness (l : LibQ) : LibQ × Nat :=
  if l.q.num > 0 ∨ l.q.size > 0 then ({ l with err := EINSNQ }, 1) else (l, 0)

/-! ### interpretation -/

/-- What the interpreter does to the outside. `writeFailed addr bytes k` is a write of `bytes` that
failed after its first `k` bytes were written. -/
inductive Event where
  | print (s : List UInt8)
  | write (addr : Nat) (bytes : List UInt8)
  | writeFailed (addr : Nat) (bytes : List UInt8) (written : Nat)
deriving DecidableEq, Repr

/-- Result of `insnq_interpret`: 0, EINSNQ, or a read outside of the queue buffer. -/
inductive Verdict where
  | ok
  | einsnq
  | oob
deriving DecidableEq, Repr

/-- `n` bytes of the buffer, `none` if not all inside. -/
def bytesAt (buf : Mem) (pos n : Nat) : Option (List UInt8) :=
  if pos + n ≤ bufMax then some (buf.load pos n) else none

/-- The C string at `pos` (`printf("%s")`, common/insn_queue.c:40), `none` if it is not terminated
within the `room` bytes left. -/
def cstringAt (buf : Mem) (pos : Nat) : (room : Nat) → Option (List UInt8)
  | 0 => none
  | room + 1 =>
    if buf pos = 0 then some [] else (cstringAt buf (pos + 1) room).map (buf pos :: ·)

/-- The signed 24-bit field `size`, include/insn_queue.h:89. -/
def int24 (bs : List UInt8) : Int :=
  if leVal bs < 2 ^ 23 then leVal bs else (leVal bs : Int) - 2 ^ 24

/-- One instruction: `insn_interpret`, common/insn_queue.c:36-83 with the writer of
tools/insn_queue.c:38-48.  Returns the event and the amount to add to the pc.
`fault = some k`: the write fails after `k` bytes (the tool then returns -1). -/
inductive Step where
  | next (ev : Option Event) (advance : Int)
  | invalid
  | oob
deriving DecidableEq, Repr

def step (buf : Mem) (pc : Int) (fault : Option Nat) : Step :=
  if pc < 0 ∨ (bufMax : Int) ≤ pc then .oob
  else
    let p := pc.toNat
    if buf p = 0 then .next none 4
    else if buf p = 1 then
      match bytesAt buf (p + 1) 3, cstringAt buf (p + 4) (bufMax - (p + 4)) with
      | some sz, some s => .next (some (.print s)) (int24 sz)
      | _, _ => .oob
    else if buf p = 2 then
      match bytesAt buf (p + 1) 3, bytesAt buf (p + 4) 4, bytesAt buf (p + 8) 8 with
      | some sz, some n, some addr =>
        match bytesAt buf (p + 16) (leVal n) with
        | some bytes => match fault with
          | none => .next (some (.write (leVal addr) bytes)) (int24 sz)
          | some k => .next (some (.writeFailed (leVal addr) bytes k)) (-1)
        | none => .oob
      | _, _, _ => .oob
    else .invalid

/-- The loop of `insnq_interpret`, common/insn_queue.c:92-128.  `left` is
`num_insns - num_insns_executed`, `i` is `num_insns_executed`, `fault i` says whether the write of
the `i`-th executed instruction fails. -/
def interpretFrom (buf : Mem) (size : Nat) (fault : Nat → Option Nat) :
    (left i : Nat) → (pc : Int) → List Event × Verdict
  | 0, _, pc => ([], if pc = size then .ok else .einsnq)
  | left + 1, i, pc =>
    match step buf pc (fault i) with
    | .oob => ([], .oob)
    | .invalid => ([], .einsnq)
    | .next ev adv =>
      let (evs, v) := interpretFrom buf size fault left (i + 1) (pc + adv)
      (ev.toList ++ evs, v)

/-- `insnq_interpret`, common/insn_queue.c:91-128. -/
def interpret (q : Queue) (fault : Nat → Option Nat) : List Event × Verdict :=
  interpretFrom q.buf q.size fault q.num 0 0

/-- `insnq_get_from_remote_process`, tools/insn_queue.c:62-93, the remote reads succeeding: the
tool's copy is zeroed and only `size` bytes of the buffer are fetched. -/
def fetch (q : Queue) : Queue × Err :=
  if q.version > currVersion then (q, EOLDULP)
  else if q.size = 0 then ({ q with buf := fun _ => 0 }, ENONE)
  else if q.size > bufMax then (q, EINSNQ)
  else ({ q with buf := fun i => if i < q.size then q.buf i else 0 }, ENONE)

/-- A change made by the tool to the patched process. -/
inductive Effect where
  | ev (e : Event)
  | setSize (n : Nat)
  | setNum (n : Nat)
deriving DecidableEq, Repr

/-- `insnq_interpret_from_process_`, tools/insn_queue.c:172-209 with `insnq_update_remote`
(:106-127): all changes made to the process, in order, and the returned code.  A queue address of 0
(old libpulp) and failures to read the queue or to reset it are not modelled (a failed reset is a
crash point, see `Props`).  An out-of-bounds read of the tool is shown as the code `none`. -/
def toolRun (q : Queue) (fault : Nat → Option Nat) : List Effect × Option Err :=
  match fetch q with
  | (q', e) =>
    if e ≠ ENONE then ([], some e)
    else
      match interpret q' fault with
      | (evs, .ok) => (evs.map .ev ++ [.setSize 0, .setNum 0], some ENONE)
      | (evs, .einsnq) => (evs.map .ev, some EINSNQ)
      | (evs, .oob) => (evs.map .ev, none)

/-- Effect of an event on the memory of the process (`write_bytes_ptrace`, tools/ptrace.c:111-143;
see `Verif.Ptrace` for that function itself). -/
def Event.apply (m : Mem) : Event → Mem
  | .print _ => m
  | .write a bs => m.store a bs
  | .writeFailed a bs k => m.store a (bs.take k)

/-- The patched process as seen by the tool: memory and queue. -/
structure Proc where
  mem : Mem
  q : Queue

/-- One change. -/
def Effect.apply (p : Proc) : Effect → Proc
  | .ev e => { p with mem := e.apply p.mem }
  | .setSize n => { p with q := { p.q with size := n } }
  | .setNum n => { p with q := { p.q with num := n } }

def applyEffects (p : Proc) (es : List Effect) : Proc := es.foldl Effect.apply p

end Verif.InsnQueue
