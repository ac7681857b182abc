import Verif.Messages.Lemmas
import Verif.Text.Props

/-! Theorems on `ulp messages`. -/

namespace Verif.Messages

open Verif.MsgQueue
open Verif.Text (printDec)

/-! ### C134 -/

/-- **C134** `ulp messages` run at any time while other tools have libpulp write messages: it prints the newest messages as of one moment of its run, whole and
in order, with status 0, or nothing with status 1. `b` is the process when the run begins, `c` when it has printed. -/
theorem C134_one_moment {N fuel : Nat} (h0 : 0 < N) (hN : N ≤ 2 ^ 30) (hf : 2 * N + 1 < fuel) {q₀ : MsgQ} {log₀ : List Str}
    (hq : pushAll N fuel init log₀ = .ok q₀) {b c : Conf} (hb : Steps N fuel (start q₀ log₀) b) {r : Nat} (hr : b.phase r = .out)
    (hc : Steps N fuel b c) (hplain : Plain N c.log) {st : Nat} {o : Option (List UInt8)} (h : c.phase r = .shown st o) :
    (st = 0 ∧ ∃ text log, o = some text ∧ b.log <+: log ∧ log <+: c.log ∧ Newest N log text) ∨ (st = 1 ∧ o = some []) := by
  have hj := J_steps ((J_steps (r := r) (J_start hq) hb).now hr) hc
  rcases hj.shown st o h with h1 | ⟨h1, ms, q, h2, h3, h4, h5⟩
  · exact .inr h1
  · left
    have hms : ∀ m ∈ ms, (∀ b ∈ m, b ≠ 0) ∧ m.length + 1 ≠ N := fun m hm => hplain m (h3.subset hm)
    obtain ⟨q', d, kept, e, hinv, _, _⟩ := pushAll_inv hN hf ms hms (inv_init N)
    rw [h4] at e
    cases e
    obtain ⟨q', k, e, hk, hk1, hk2⟩ := C01_log_shows_newest_partial N fuel hN hf ms (fun m hm => (hms m hm).1) (fun m hm => (hms m hm).2)
    rw [h4] at e
    cases e
    exact ⟨h1, printed N q, ms, by rw [h5, view_cells (inv_bottom hinv h0)], h2, h3, k, hk, hk1, hk2⟩

/-- A ring of ten bytes, one message logged; tool 1 logs another while `ulp messages` (tool 2) runs: it attaches after that, reads in two pieces, and prints both. -/
def demoQ : MsgQ := { buf := fun i => [97, 98, 0].getD i 0, top := 3, bottom := 0, distance := 3 }

theorem demo_push : pushAll 10 30 init [[97, 98]] = .ok { demoQ with buf := blit (fun _ => 0) 0 [97, 98, 0] } := by rfl

theorem Steps.one {N fuel : Nat} {c d e : Conf} (h : Steps N fuel c d) (h' : Step N fuel d e) : Steps N fuel c e := .tail h h'

theorem Steps.here {N fuel : Nat} {c d : Conf} (_ : Steps N fuel c d) : Steps N fuel d d := .refl

theorem demo_trace : ∃ b c o, Steps 10 30 (start { demoQ with buf := blit (fun _ => 0) 0 [97, 98, 0] } [[97, 98]]) b ∧ b.phase 2 = .out ∧ Steps 10 30 b c ∧
    Plain 10 c.log ∧ c.phase 2 = .shown 0 o ∧ o = some [97, 98, 0, 99, 100, 0] := by
  let q0 : MsgQ := { demoQ with buf := blit (fun _ => 0) 0 [97, 98, 0] }
  cases hp : push 10 30 q0 [99, 100] with
  | outOfBounds => exact absurd hp (by intro h; cases h)
  | running => exact absurd hp (by intro h; cases h)
  | ok q1 =>
    have s1 := Steps.one (.refl (N := 10) (fuel := 30) (c := start q0 [[97, 98]])) (Step.enter _ 1 rfl rfl)
    have s2 := Steps.one s1 (Step.begin _ 1 [99, 100] rfl)
    have s3 := Steps.one s2 (Step.scribble _ 1 q0 [99, 100] { demoQ with top := 9 } rfl)
    have t1 := Steps.one (Steps.here s3) (Step.commit _ 1 q0 [99, 100] q1 rfl hp)
    have t2 := Steps.one t1 (Step.leave _ 1 rfl)
    have t3 := Steps.one t2 (Step.attach _ 2 rfl rfl)
    have t4 := Steps.one t3 (Step.read _ 2 4 [] rfl (by decide))
    have t5 := Steps.one t4 (Step.read _ 2 9 _ rfl (Nat.le_refl 13))
    have t6 := Steps.one t5 (Step.detach _ 2 _ rfl (by rfl))
    refine ⟨_, _, _, s3, rfl, t6, ?_, rfl, ?_⟩
    · show Plain 10 ([[97, 98]] ++ [[99, 100]])
      unfold Plain; decide
    · cases hp
      rfl

/-! ### C135 -/

/-- **C135** (partial) `-p` with the number of a process: numbers below 2³¹ are taken as they are. -/
theorem C135_process_number_partial (n : Nat) (h : n < 2 ^ 31) : target (some (printDec n)) = some (n : Int) := by
  rw [target, if_pos (Text.isnumber_printDec n), Option.getD_some, Text.atoi_printDec h]

example : target (some (printDec 4242)) = some 4242 := C135_process_number_partial 4242 (by decide)

/-- Whatever is not a number is refused. -/
theorem C135_refused (arg : Option Str) (h : Text.isnumber arg = false) : target arg = none := by
  rw [target, if_neg (by simp [h])]

/-- **C135** is false of the code: larger numbers, which name no process, are cut: the messages of another process are shown. -/
theorem C135_other_process (n k : Nat) (h : n < 2 ^ 31) (hk : n + 2 ^ 32 * k < 2 ^ 63) :
    target (some (printDec (n + 2 ^ 32 * k))) = some (n : Int) := by
  rw [target, if_pos (Text.isnumber_printDec _), Option.getD_some]
  unfold Text.atoi
  rw [Text.printDec_value]
  simp only
  rw [Nat.min_eq_left (by omega), Nat.add_mul_mod_self_left, Nat.mod_eq_of_lt (by omega), if_pos h]

example : target (some (printDec 4294967297)) = some 1 := C135_other_process 1 1 (by decide) (by decide)

/-! ### C136 -/

/-- **C136** (partial) Whatever bytes a process presents as its message queue, reading stays within the tool's copy if and only if the distance is
not positive or the bottom lies in the ring; then at most as many bytes are printed as the distance says. -/
theorem C136_print_safe_partial (N : Nat) (h0 : 0 < N) (v : View) :
    (msgqPrint N v).isSome ↔ (v.distance ≤ 0 ∨ (0 ≤ v.bottom ∧ v.bottom < N)) := by
  unfold msgqPrint
  constructor
  · intro h
    by_cases hd : v.distance ≤ 0
    · exact .inl hd
    · right
      obtain ⟨d, hd⟩ : ∃ d, v.distance.toNat = d + 1 := ⟨v.distance.toNat - 1, by omega⟩
      rw [hd, printLoop] at h
      split at h
      · cases h
      · omega
  · rintro (h | h)
    · rw [show v.distance.toNat = 0 by omega]; rfl
    · obtain ⟨b, hb⟩ : ∃ b : Nat, v.bottom = b := ⟨v.bottom.toNat, by omega⟩
      rw [hb, printLoop_ok _ _ _ (by omega)]; rfl

/-- The number of bytes printed is the distance, which nothing bounds. -/
theorem C136_length (N : Nat) (h0 : 0 < N) (v : View) (out : List UInt8) (h : msgqPrint N v = some out) :
    out.length = v.distance.toNat := by
  have hl : ∀ (d : Nat) (b : Int) (out : List UInt8), printLoop N v.buf b d = some out → out.length = d := by
    intro d
    induction d with
    | zero => intro b out h; cases h; rfl
    | succ d ih =>
      intro b out h
      rw [printLoop] at h
      split at h
      · cases h
      · obtain ⟨o, h1, rfl⟩ := Option.map_eq_some_iff.1 h
        simp [ih _ _ h1]
  exact hl _ _ _ h

/-- **C136** is false of the code: a process can make the tool read outside. -/
theorem C136_outside : ∃ v : View, msgqPrint (2 * 1024 * 1024) v = none := by
  refine ⟨⟨fun _ => 0, -1, 1⟩, ?_⟩
  rfl

example : (msgqPrint 10 ⟨fun _ => 7, 9, 3⟩) = some [7, 7, 7] := by rfl

/-! ### the address of the queue -/

/-- The queue read is the first one found; none is read if there is none. -/
theorem C134_address (as : List Nat) : msgqAddress as = (as.find? (· ≠ 0)).getD 0 := by
  induction as with
  | nil => rfl
  | cons a as ih =>
    by_cases h : a = 0
    · simp [msgqAddress, h, ih]
    · simp [msgqAddress, h]

/-! ### Further cases -/

example : ∃ (c : Conf) (text : List UInt8) (log : List Str), c.phase 2 = .shown 0 (some text) ∧ log <+: c.log ∧ Newest 10 log text := by
  obtain ⟨b, c, o, hb, hr, hc, hp, h, rfl⟩ := demo_trace
  rcases C134_one_moment (by decide) (by decide) (by decide) demo_push hb hr hc hp h with ⟨-, text, log, ht, -, h2, h3⟩ | ⟨h1, -⟩
  · cases ht; exact ⟨c, _, log, h, h2, h3⟩
  · cases h1

example : msgqAddress [0, 0, 0x7000, 0x8000] = 0x7000 := C134_address _
example : target (some [49, 120]) = none := C135_refused _ rfl
example := (C136_print_safe_partial 10 (by decide) ⟨fun _ => 7, 9, 3⟩).2 (.inr ⟨by decide, by decide⟩)
example := C136_length 10 (by decide) ⟨fun _ => 7, 9, 3⟩ [7, 7, 7] rfl

end Verif.Messages
