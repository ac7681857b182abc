import Verif.MsgQueue.Lemmas

/-! Properties C01-C03: the message log. -/

namespace Verif.MsgQueue
open Spec

/-- The real ring size, `MSGQ_BUFFER_MAX`, include/msg_queue.h:28. -/
def ringSize : Nat := 2 * 1024 * 1024

/-- **C01** (partial: messages of exactly the ring size are excluded, see
`C02_full_ring_message_hangs`).
For every ring size and every history of messages, `ulp messages` shows exactly the `k` newest
loggable messages, whole and in order, and at least one if there was any. -/
theorem C01_log_shows_newest_partial (N fuel : Nat) (hN : N ≤ 2 ^ 30) (hf : 2 * N + 1 < fuel)
    (ms : List (List UInt8)) (hnul : ∀ m ∈ ms, ∀ b ∈ m, b ≠ 0) (hsz : ∀ m ∈ ms, m.length + 1 ≠ N) :
    ∃ q k, pushAll N fuel init ms = .ok q ∧
      records (printed N q) = newest k (loggable N ms) ∧
      k ≤ (loggable N ms).length ∧ (loggable N ms ≠ [] → 1 ≤ k) := by
  obtain ⟨q, d, kept, e, hinv, hd, hne⟩ := pushAll_inv hN hf ms
    (fun m hm => ⟨hnul m hm, hsz m hm⟩) (inv_init N)
  simp only [List.nil_append] at hd hne
  refine ⟨q, kept.length, e, ?_, ?_, ?_⟩
  · rw [printed_inv hinv, newest, hd]
    simp
  · rw [hd]; simp
  · intro h
    have := hne h
    cases kept with
    | nil => exact absurd rfl this
    | cons => simp

/-- **C02** (partial: messages of exactly the ring size are excluded). Every push in every history
finishes and stays inside the ring. -/
theorem C02_log_push_safe_partial (N fuel : Nat) (hN : N ≤ 2 ^ 30) (hf : 2 * N + 1 < fuel)
    (ms : List (List UInt8)) (hnul : ∀ m ∈ ms, ∀ b ∈ m, b ≠ 0) (hsz : ∀ m ∈ ms, m.length + 1 ≠ N) :
    pushAll N fuel init ms ≠ .outOfBounds ∧ pushAll N fuel init ms ≠ .running := by
  obtain ⟨q, d, kept, e, _⟩ := pushAll_inv hN hf ms
    (fun m hm => ⟨hnul m hm, hsz m hm⟩) (inv_init N)
  rw [e]
  exact ⟨by simp, by simp⟩

/-- C02 is false of the code as it is: a first message that fills the ring exactly (which
lib/msg_queue.c:48 lets through) never returns, whatever the number of iterations. -/
theorem C02_full_ring_message_hangs (N fuel : Nat) (m : List UInt8) (hm : m ≠ [])
    (hsz : m.length + 1 = N) (hN : N ≤ 2 ^ 30) : push N fuel init m = .running := by
  have hpos : 0 < m.length := by cases m <;> simp_all
  unfold push
  simp only [init, Nat.zero_add]
  rw [if_neg (by simp [hm]; omega), if_neg (by simp)]
  have hw : N ≤ m.length + 1 := by omega
  simp only [hw, decide_true, if_true, Nat.sub_zero, Int.zero_add]
  cases fuel with
  | zero => simp [evict]
  | succ f =>
    have ht := tooFull_iff (N := N) (d := N) (s := m.length + 1) (by omega)
    rw [evict, ht, if_pos (by simp), if_neg (by omega)]
    have hz : ∀ i, i < N → clear (fun _ => 0) 0 N i = 0 := by
      intro i hi; simp [clear]
    have hs : strlen (clear (fun _ => 0) 0 N) 0 (N - 0) = some 0 := by
      obtain ⟨n, rfl⟩ : ∃ n, N = n + 1 := ⟨N - 1, by omega⟩
      simp [strlen, hz 0 (by omega)]
    simp only [hs, Nat.zero_add]
    rw [skipNuls_forever (by omega) hz _ _ _ (Nat.mod_lt _ (by omega))]

/-- Instance of the above at the real size: the log of a fresh process hangs on a message of
2097151 bytes. -/
theorem C02_hang_at_real_size (fuel : Nat) :
    push ringSize fuel init (List.replicate (ringSize - 1) 97) = .running :=
  C02_full_ring_message_hangs ringSize fuel _
    (by intro h
        have := congrArg List.length h
        rw [List.length_replicate] at this
        exact absurd this (by decide))
    (by rw [List.length_replicate]; decide) (by decide)

/-- **C03** As long as everything logged so far fits into the ring, all of it is shown. -/
theorem C03_nothing_dropped_while_room (N fuel : Nat) (hN : N ≤ 2 ^ 30) (hf : 0 < fuel)
    (ms : List (List UInt8)) (hms : ∀ m ∈ ms, m ≠ [] ∧ ∀ b ∈ m, b ≠ 0) (hfit : footprint ms < N) :
    ∃ q, pushAll N fuel init ms = .ok q ∧ records (printed N q) = ms := by
  obtain ⟨q, e, hinv⟩ := pushAll_linear hN hf ms hms (inv_init N) rfl (by simp [init]) (by simpa)
  exact ⟨q, e, by simpa using printed_inv hinv⟩

/-! Concrete instances: a ring of 10 bytes, five messages, wrap-around and eviction. -/

/-- "abc", "de", "fghi", "j", "klmn" -/
def demo : List (List UInt8) := [[97, 98, 99], [100, 101], [102, 103, 104, 105], [106], [107, 108, 109, 110]]

example : ∃ q k, pushAll 10 30 init demo = .ok q ∧
    records (printed 10 q) = newest k (loggable 10 demo) ∧
    k ≤ (loggable 10 demo).length ∧ (loggable 10 demo ≠ [] → 1 ≤ k) :=
  C01_log_shows_newest_partial 10 30 (by decide) (by decide) demo (by decide) (by decide)

example : (match pushAll 10 30 init demo with
    | .ok q => records (printed 10 q)
    | _ => []) = [[107, 108, 109, 110]] := by decide

example : ∃ q, pushAll 10 1 init [[97, 98, 99], [100, 101]] = .ok q ∧
    records (printed 10 q) = [[97, 98, 99], [100, 101]] :=
  C03_nothing_dropped_while_room 10 1 (by decide) (by decide) _ (by decide) (by decide)

/-- The messages of the demonstration never hang the ring nor leave it; a message of 9 bytes in a ring of 10 does hang it. -/
example := C02_log_push_safe_partial 10 30 (by decide) (by decide) demo (by decide) (by decide)

example : push 10 1000 init [97, 98, 99, 100, 101, 102, 103, 104, 105] = .running :=
  C02_full_ring_message_hangs 10 1000 _ (by decide) (by decide) (by decide)

example := C02_hang_at_real_size 1000

end Verif.MsgQueue
