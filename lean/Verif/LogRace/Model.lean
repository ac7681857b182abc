import Mathlib.Logic.Function.Basic
import Verif.MsgQueue.Model

/-!
# Several threads that log messages at once

`Verif.MsgQueue` takes a push to the message log as one step.  It is not: there is no lock in lib/msg_queue.c.  Messages
are logged by libpulp's routines, which run while all threads are stopped, but on POWER also by the threads of the
program themselves: `ulp_stack_helper` logs each time a thread needs a larger shadow stack
(lib/arch/powerpc64le/patch.c:315), and such a thread can be stopped anywhere in `msgq_strpush` when a routine of
libpulp comes to log its messages.  So here a push is cut into the reads and writes of what threads share: the three
numbers and the ring of `__ulp_msg_queue`, and the static buffer `msg` into which messages are formatted
(lib/msg_queue.c:33-35).

`N` is `MSGQ_BUFFER_MAX` (2 MiB, include/msg_queue.h:28).

Simplifications: memory is sequentially consistent, and variables are read and written where the code says so; each of
`vsnprintf`, `memset`, `memcpy` and `strlen` is one step.  `distance` is an unbounded integer.
-/

namespace Verif.LogRace

open Verif.MsgQueue

/-- What the threads share: `__ulp_msg_queue` and `msg`, lib/msg_queue.c:33-35. -/
structure Shared where
  buf : Nat → UInt8
  top : Nat
  bottom : Nat
  distance : Int
  msg : Nat → UInt8

/-- Both are zero at first. -/
def Shared.start : Shared := ⟨fun _ => 0, 0, 0, 0, fun _ => 0⟩

/-- The queue among what is shared. -/
def Shared.queue (sh : Shared) : MsgQ := ⟨sh.buf, sh.top, sh.bottom, sh.distance⟩

/-- Where a thread is in `msgq_strpush`, lib/msg_queue.c:37-94. -/
inductive Pc where
  | idle
  /-- 41-43 -/
  | loadTop
  | loadBottom
  | loadDistance
  /-- 48 -/
  | check
  /-- 57-61 -/
  | pad
  /-- The condition of the loop, 69. -/
  | evict
  /-- 70-71 -/
  | strlen
  /-- 76-81 -/
  | skip
  /-- 85-89 -/
  | copy
  /-- 91-93 -/
  | storeTop
  | storeBottom
  | storeDistance
deriving DecidableEq, Repr

/-- The variables of `msgq_strpush`, lib/msg_queue.c:37-43.  `src` is the argument `msg`: the static buffer (`none`), or
a string of the thread's own, which is the time that `ulp_warn` and `ulp_debug` log first (lib/msg_queue.c:150-152,
170-172). -/
structure Local where
  src : Option (List UInt8)
  size : Nat
  top : Nat
  bottom : Nat
  distance : Int
  travel : Nat

/-- Byte `i` of the message. -/
def byte (sh : Shared) (l : Local) (i : Nat) : UInt8 :=
  match l.src with
  | none => sh.msg i
  | some b => b.getD i 0

/-- `vsnprintf(msg, N, ...)` with the result `m`, lib/msg_queue.c:110 and 128: `m`, or as much of it as fits, and a NUL;
what was behind stays. -/
def format (N : Nat) (m : List UInt8) (msg : Nat → UInt8) : Nat → UInt8 :=
  fun i => if i < min m.length (N - 1) then m.getD i 0 else if i = min m.length (N - 1) then 0 else msg i

/-- The variables when `msgq_strpush` is called. -/
def enter (src : Option (List UInt8)) (size : Nat) : Local := ⟨src, size, 0, 0, 0, 0⟩

/-- `memcpy(&buffer[top], msg, msg_size)`, lib/msg_queue.c:85. -/
def write (sh : Shared) (l : Local) : Nat → UInt8 :=
  fun i => if l.top ≤ i ∧ i < l.top + l.size then byte sh l (i - l.top) else sh.buf i

/-- One step of a thread in `msgq_strpush`, lib/msg_queue.c:37-94; `none` is an access outside of the ring. -/
def act (N : Nat) (sh : Shared) : Pc → Local → Option (Shared × Pc × Local)
  | .idle, l => some (sh, .idle, l)
  | .loadTop, l => some (sh, .loadBottom, { l with top := sh.top })
  | .loadBottom, l => some (sh, .loadDistance, { l with bottom := sh.bottom })
  | .loadDistance, l => some (sh, .check, { l with distance := sh.distance })
  | .check, l => if byte sh l 0 = 0 ∨ N < l.size then some (sh, .idle, l) else some (sh, .pad, l)
  | .pad, l =>
    if N ≤ l.top + l.size then
      if N < l.top then none
      else some ({ sh with buf := clear sh.buf l.top (N - l.top) }, .evict,
        { l with distance := l.distance + (N - l.top : Nat), top := 0 })
    else some (sh, .evict, l)
  | .evict, l => if tooFull N l.distance l.size then some (sh, .strlen, l) else some (sh, .copy, l)
  | .strlen, l =>
    if N ≤ l.bottom then none
    else match strlen sh.buf l.bottom (N - l.bottom) with
    | none => none
    | some len => some (sh, .skip, { l with travel := len + 1, bottom := (l.bottom + (len + 1)) % N })
  | .skip, l =>
    if N ≤ l.bottom then none
    else if sh.buf l.bottom = 0 then some (sh, .skip, { l with bottom := (l.bottom + 1) % N, travel := l.travel + 1 })
    else some (sh, .evict, { l with distance := l.distance - l.travel })
  | .copy, l =>
    if N < l.top + l.size then none
    else some ({ sh with buf := write sh l }, .storeTop,
      { l with distance := l.distance + l.size, top := (l.top + l.size) % N })
  | .storeTop, l => some ({ sh with top := l.top }, .storeBottom, l)
  | .storeBottom, l => some ({ sh with bottom := l.bottom }, .storeDistance, l)
  | .storeDistance, l => some ({ sh with distance := l.distance }, .idle, l)

/-- The threads of a process and what they share. -/
structure Sys where
  sh : Shared
  th : Nat → Pc × Local

/-- No thread is logging and nothing has been logged. -/
def Sys.start : Sys := ⟨Shared.start, fun _ => (.idle, enter none 0)⟩

/-- Thread `i` calls `msgq_push` or `msgq_vpush` (lib/msg_queue.c:101-131) and has formatted the message `m`. -/
def said (N : Nat) (s : Sys) (i : Nat) (m : List UInt8) : Sys :=
  ⟨{ s.sh with msg := format N m s.sh.msg }, Function.update s.th i (.loadTop, enter none (m.length + 1))⟩

/-- Thread `i` logs the time `b`, lib/msg_queue.c:150-152 and 170-172. -/
def stamped (s : Sys) (i : Nat) (b : List UInt8) : Sys :=
  ⟨s.sh, Function.update s.th i (.loadTop, enter (some (b ++ [0])) (b.length + 1))⟩

/-- One step of one thread.  `P` says which messages are logged, none of which contains a NUL byte (they are the results
of `vsnprintf` and `strftime`). -/
inductive Step (N : Nat) (P : List UInt8 → Prop) : Sys → Sys → Prop where
  | say {s i m} : (s.th i).1 = .idle → P m → (∀ c ∈ m, c ≠ 0) → Step N P s (said N s i m)
  | stamp {s i b} : (s.th i).1 = .idle → P b → (∀ c ∈ b, c ≠ 0) → Step N P s (stamped s i b)
  | go {s i sh pc l} : (s.th i).1 ≠ .idle → act N s.sh (s.th i).1 (s.th i).2 = some (sh, pc, l) →
      Step N P s ⟨sh, Function.update s.th i (pc, l)⟩

/-- Any number of steps. -/
inductive Steps (N : Nat) (P : List UInt8 → Prop) : Sys → Sys → Prop where
  | refl {s} : Steps N P s s
  | tail {s t u} : Steps N P s t → Step N P t u → Steps N P s u

end Verif.LogRace
