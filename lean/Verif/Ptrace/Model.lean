import Verif.Base.Err
import Verif.Base.Str
import Verif.Base.Mem

/-!
Model of the remote memory accesses and of the register set-up in tools/ptrace.c.

The target is stopped, so its memory is a plain `Mem`.  Addresses are naturals: address arithmetic that
would wrap around 2^64 is not modelled.  Both architectures are little-endian, so a word in memory is
its bytes in order.
-/

namespace Verif.Ptrace

/-- `ulp_ptrace(PTRACE_POKEDATA)`, tools/ptrace.c:66-105: writes a word.  `some j`: the request finally
fails (after the retries of the wrapper), having written the first `j` bytes; the kernel may do that
when the word crosses into an unmapped page. -/
def poke (m : Mem) (a : Nat) (w : List UInt8) : Option Nat → Mem × Bool
  | none => (m.store a w, true)
  | some j => (m.store a (w.take j), false)

/-- `write_bytes_ptrace`, tools/ptrace.c:110-143, from the point where `longs` words are left to write, then
`buf.length` less than 8 further bytes.  `fail i` tells how the `i`th ptrace request ends.  The result
is the memory and the return value. -/
def writeLoop (fail : Nat → Option Nat) : (longs op a : Nat) → (buf : List UInt8) → Mem → Mem × Nat
  | 0, op, a, buf, m =>
    if 0 < buf.length then
      match fail op with
      | some _ => (m, 1)
      | none =>
        let remainder := buf ++ (m.load a 8).drop buf.length
        match poke m a remainder (fail (op + 1)) with
        | (m, ok) => (m, if ok then 0 else 1)
    else (m, 0)
  | longs + 1, op, a, buf, m =>
    match poke m a (buf.take 8) (fail op) with
    | (m, false) => (m, 1)
    | (m, true) => writeLoop fail longs (op + 1) (a + 8) (buf.drop 8) m

/-- `write_bytes_ptrace`, tools/ptrace.c:110-143. -/
def writeBytesPtrace (fail : Nat → Option Nat) (buf : List UInt8) (addr : Nat) (m : Mem) : Mem × Nat :=
  writeLoop fail (buf.length / 8) 0 addr buf m

/-- Result of a bulk transfer: what the destination holds, and whether 0 was returned (otherwise it
is an errno value). -/
structure Bulk where
  dst : List UInt8
  ok : Bool
deriving DecidableEq, Repr

/-- The loop shared by `write_bytes`, `read_long` and `read_memory`, tools/ptrace.c:148-166,210-228,245-263,
from its `i`th iteration on.  `ret i` is what `process_vm_readv/writev` returns the `i`th time (`none`: -1);
it then has transferred the first that many bytes.  The iovecs are never advanced, so every call starts
from the beginning.  `none`: the loop has not ended after `fuel` iterations. -/
def bulkLoop (ret : Nat → Option Nat) (src : List UInt8) : (fuel i acc : Nat) → List UInt8 → Option Bulk
  | 0, _, _, _ => none
  | fuel + 1, i, acc, dst => match ret i with
    | none => some ⟨dst, false⟩
    | some r =>
      let dst := src.take r ++ dst.drop r
      let acc := (acc + r) % 2 ^ 64
      if acc = src.length then some ⟨dst, true⟩ else bulkLoop ret src fuel (i + 1) acc dst

/-- `write_bytes`, `read_long`, `read_memory` of `src.length` bytes. -/
def bulk (ret : Nat → Option Nat) (src dst : List UInt8) (fuel : Nat) : Option Bulk := bulkLoop ret src fuel 0 0 dst

/-- `read_long`, tools/ptrace.c:207-239, when the kernel transfers all of the word or nothing: it succeeds
if all of the word is readable. -/
def readLong (readable : Nat → Bool) (m : Mem) (a : Nat) : Option (List UInt8) :=
  if (List.range 8).all (fun i => readable (a + i)) then some (m.load a 8) else none

/-- `hasbytezero`, tools/ptrace.c:305-312. -/
def hasbytezero (l : UInt64) : Bool :=
  ((l - 0x0101010101010101) &&& ~~~ l &&& 0x8080808080808080) != 0

/-- The word read into memory, as the number the code tests. -/
def asLong (w : List UInt8) : UInt64 := UInt64.ofNat (leVal w)

/-- Result of reading a string: the whole buffer, failure, or a write outside of the buffer. -/
inductive ReadResult where
  | ok (buf : List UInt8)
  | fail
  | overflow
deriving DecidableEq, Repr

/-- The loop of `read_string`, tools/ptrace.c:366-388, with `buf` read so far and room for `cap` words
(allocations succeed).  `none`: not ended after `fuel` iterations. -/
def readStringLoop (rd : Nat → Option (List UInt8)) : (fuel cap a : Nat) → List UInt8 → Option ReadResult
  | 0, _, _, _ => none
  | fuel + 1, cap, a, buf =>
    let cap := if cap ≤ buf.length / 8 then cap * 2 else cap
    if cap ≤ buf.length / 8 then some .overflow
    else match rd a with
      | none => some .fail
      | some w =>
        if hasbytezero (asLong w) then some (.ok (buf ++ w))
        else readStringLoop rd fuel cap (a + 8) (buf ++ w)

/-- `read_string`, tools/ptrace.c:357-392. -/
def readString (readable : Nat → Bool) (m : Mem) (a fuel : Nat) : Option ReadResult :=
  readStringLoop (readLong readable m) fuel 8 a []

/-- `read_string_allocated`, tools/ptrace.c:315-345: `longs` words are left to be read to index `i` of
the buffer, then `rem` bytes. -/
def readAllocatedLoop (rd : Nat → Option (List UInt8)) (rem : Nat) : (longs a i : Nat) → List UInt8 → ReadResult
  | 0, a, i, buf =>
    if rem > 0 then
      match rd a with
      | none => .fail
      | some w => .ok (buf.take i ++ w.take rem ++ buf.drop (i + rem))
    else .ok buf
  | longs + 1, a, i, buf => match rd a with
    | none => .fail
    | some w =>
      let buf := buf.take i ++ w ++ buf.drop (i + 8)
      if hasbytezero (asLong w) then .ok buf
      else readAllocatedLoop rd rem longs (a + 8) (i + 8) buf

/-- `read_string_allocated` into a buffer of `buf.length` bytes, tools/ptrace.c:315-345. -/
def readStringAllocated (readable : Nat → Bool) (m : Mem) (a : Nat) (buf : List UInt8) : ReadResult :=
  readAllocatedLoop (readLong readable m) (buf.length % 8) (buf.length / 8) a 0 buf

/-- The C string a buffer starts with. -/
def cstr (buf : List UInt8) : Str := buf.takeWhile (fun c => c != 0)

/-- The stack pointer set up by `run_and_redirect`, tools/ptrace.c:555,575; `redZone` is `RED_ZONE_LEN`:
128 on x86-64 (include/arch/x86_64/arch_common.h:26), 512 on ppc64le (include/arch/powerpc64le/arch_common.h:8). -/
def redirectSp (redZone sp : UInt64) : UInt64 := (sp - redZone) &&& 0xFFFFFFFFFFFFFFC0

end Verif.Ptrace
