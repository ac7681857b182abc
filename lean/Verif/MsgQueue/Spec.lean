/-!
What a user of `ulp messages` expects of the message log; independent of the ring buffer.
-/

namespace Verif.MsgQueue.Spec

/-- Split a byte stream at NUL bytes. -/
def splitNul : List UInt8 → List (List UInt8)
  | [] => [[]]
  | b :: bs => match splitNul bs with
    | [] => []
    | r :: rs => if b = 0 then [] :: r :: rs else (b :: r) :: rs

/-- The non-empty NUL-separated records of a byte stream. -/
def records (bs : List UInt8) : List (List UInt8) := (splitNul bs).filter (· ≠ [])

/-- The messages of a history which the log is meant to record: non-empty and small enough to fit
into the ring together with their terminator. -/
def loggable (N : Nat) (ms : List (List UInt8)) : List (List UInt8) :=
  ms.filter fun m => m ≠ [] ∧ m.length + 1 ≤ N

/-- The last `k` elements of a list. -/
def newest (k : Nat) (ms : List (List UInt8)) : List (List UInt8) := ms.drop (ms.length - k)

/-- Space a list of messages occupies, terminators included. -/
def footprint (ms : List (List UInt8)) : Nat := (ms.map fun m => m.length + 1).sum

end Verif.MsgQueue.Spec
