import Verif.Messages.Model
import Verif.MsgQueue.Spec

/-! What a user of `ulp messages` expects. -/

namespace Verif.Messages

/-- The messages `shown` are the newest ones of `log`: none of them cut, none missing in between. -/
def Newest (N : Nat) (log : List Str) (shown : List UInt8) : Prop :=
  ∃ k, MsgQueue.Spec.records shown = MsgQueue.Spec.newest k (MsgQueue.Spec.loggable N log) ∧
    k ≤ (MsgQueue.Spec.loggable N log).length ∧ (MsgQueue.Spec.loggable N log ≠ [] → 1 ≤ k)

/-- Messages as libpulp's ring takes them: without NUL, not of just the size of the ring (see `C02`). -/
def Plain (N : Nat) (log : List Str) : Prop := ∀ m ∈ log, (∀ b ∈ m, b ≠ 0) ∧ m.length + 1 ≠ N

end Verif.Messages
