import Verif.InsnQueue.Model

/-! What queued requests mean: they are performed in order, each once. -/

namespace Verif.InsnQueue.Spec

/-- The effect a request asks for. -/
def asked : Req → Event
  | .print s => .print s
  | .write a bs => .write a bs

/-- Memory after performing all requests in order. -/
def perform (m : Mem) : List Req → Mem
  | [] => m
  | .print _ :: rs => perform m rs
  | .write a bs :: rs => perform (m.store a bs) rs

/-- A request as C can express it: the address is a 64-bit pointer, a printed string has no NUL
inside, and lengths are C ints. -/
def Req.Valid : Req → Prop
  | .print s => (∀ b ∈ s, b ≠ 0) ∧ s.length < 2 ^ 31 - 16
  | .write a bs => a < 2 ^ 64 ∧ bs.length < 2 ^ 31 - 32

/-- Room a request takes in the queue: a print is rounded up to 4 bytes, a write to 8. -/
def room : Req → Nat
  | .print s => (s.length + 5 + 3) / 4 * 4
  | .write _ bs => (bs.length + 16 + 7) / 8 * 8

/-- Requests that a queue with `free` bytes left takes, in order; the others are skipped. -/
def taken (free : Nat) : List Req → List Req
  | [] => []
  | r :: rs => if room r ≤ free then r :: taken (free - room r) rs else taken free rs

end Verif.InsnQueue.Spec
