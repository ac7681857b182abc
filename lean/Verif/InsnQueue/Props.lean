import Verif.InsnQueue.Lemmas

/-!
Properties C04-C08 of the instruction queue.
-/

namespace Verif.InsnQueue

open Spec

theorem insnSize_eq_room {r : Req} (hv : Req.Valid r) : r.insnSize = room r := by
  cases r with
  | print s =>
    obtain ⟨_, h⟩ := hv
    simp only [Req.insnSize, room]
    rw [alignTo_4 (by omega)]; omega
  | write a bs =>
    obtain ⟨_, h⟩ := hv
    simp only [Req.insnSize, room]
    rw [alignTo_8 (by omega)]; omega

/-- **C04** Starting from an empty queue (whatever garbage its buffer holds), if libpulp's requests
are all accepted, the tool performs exactly them, in order, and reports success; afterwards the
memory of the process is the one obtained by performing the requests and the queue is empty. -/
theorem C04_queue_round_trip (q₀ q : Queue) (rs : List Req) (m : Mem)
    (hv : ∀ r ∈ rs, Req.Valid r) (hver : q₀.version ≤ currVersion) (hnum : q₀.num = 0)
    (hsize : q₀.size = 0) (hacc : insertAll? q₀ rs = some q) :
    ∃ es, toolRun q (fun _ => none) = (es, some ENONE) ∧
      es.filterMap (fun e => match e with | .ev e => some e | _ => none) = rs.map asked ∧
      applyEffects ⟨m, q⟩ es = ⟨perform m rs, { q with num := 0, size := 0 }⟩ := by
  have h0 : Holds q₀ [] := ⟨hnum, hsize, by rw [hsize]; omega, by simp, trivial⟩
  have h : Holds q rs := by simpa using holds_insertAll h0 hv hacc
  refine ⟨_, toolRun_holds h (by rw [insertAll_version hacc]; exact hver), ?_, ?_⟩
  · simp only [List.filterMap_append, List.filterMap_map, List.filterMap_cons, List.filterMap_nil,
      List.append_nil]
    exact congrFun (List.filterMap_eq_map (f := asked)) rs
  · have := apply_events ⟨m, q⟩ rs
    unfold applyEffects at this ⊢
    rw [List.foldl_append, this]
    rfl

/-- C04 for libpulp itself interpreting its queue (`insnq_interpret_from_lib`,
lib/insn_queue.c:352-365, used by the gdb interface): the buffer is used in place. -/
theorem C04_queue_round_trip_in_process (q₀ q : Queue) (rs : List Req)
    (hv : ∀ r ∈ rs, Req.Valid r) (hnum : q₀.num = 0) (hsize : q₀.size = 0)
    (hacc : insertAll? q₀ rs = some q) :
    interpret q (fun _ => none) = (rs.map asked, .ok) := by
  have h0 : Holds q₀ [] := ⟨hnum, hsize, by rw [hsize]; omega, by simp, trivial⟩
  have h : Holds q rs := by simpa using holds_insertAll h0 hv hacc
  exact interpret_holds h

/-- The requests of the examples: a print of 3 characters, a write of 5 bytes, one of 8. -/
def demo : List Req :=
  [.print [97, 98, 99], .write 0x1000 [1, 2, 3, 4, 5], .write 0x1003 [9, 9, 9, 9, 9, 9, 9, 9]]

theorem demo_valid : ∀ r ∈ demo, Req.Valid r := by simp [demo, Req.Valid]

/-- The demo queue. -/
def demoQ : Queue := (insertAll? Queue.fresh demo).getD Queue.fresh

theorem demoQ_eq : insertAll? Queue.fresh demo = some demoQ := rfl

example : ∃ es, toolRun demoQ (fun _ => none) = (es, some ENONE) ∧
    es.filterMap (fun e => match e with | .ev e => some e | _ => none) = demo.map asked ∧
    applyEffects ⟨fun _ => 0, demoQ⟩ es = ⟨perform (fun _ => 0) demo, { demoQ with num := 0, size := 0 }⟩ :=
  C04_queue_round_trip Queue.fresh demoQ demo (fun _ => 0) demo_valid (by decide) rfl rfl demoQ_eq

example : demoQ.size = 8 + 24 + 24 := by decide

/-! ### C05 -/

/-- **C05** (one request) A request that does not fit is refused and only recorded as the error
EINSNQ; one that fits is queued, changing no byte outside of its own slot inside the buffer. -/
theorem C05_queue_overflow_refused (l : LibQ) (r : Req) (hv : Req.Valid r) :
    (l.q.size + room r > bufMax → insert l r = ({ l with err := EINSNQ }, EINSNQ)) ∧
    (l.q.size + room r ≤ bufMax → ∃ q', insert l r = ({ l with q := q' }, ENONE) ∧
      q'.size = l.q.size + room r ∧ q'.size ≤ bufMax ∧ q'.num = l.q.num + 1 ∧
      q'.version = l.q.version ∧
      ∀ i, i < l.q.size ∨ q'.size ≤ i → q'.buf i = l.q.buf i) := by
  have hr := insnSize_eq_room hv
  have hp := insnSize_pos hv
  have he := encode_le hv
  constructor
  · intro h
    unfold insert insert?
    rw [if_neg (by omega), if_pos (by omega)]
  · intro h
    unfold insert insert?
    rw [if_neg (by omega), if_neg (by omega)]
    refine ⟨_, rfl, ?_, ?_, rfl, rfl, ?_⟩
    · simp [hr]
    · simp; omega
    · intro i hi
      apply store_out
      simp at hi; omega

/-- Any history of requests, going on after refusals (as libpulp's callers do, lib/ulp.c:77-86). -/
def insertSeq (l : LibQ) (rs : List Req) : LibQ := rs.foldl (fun l r => (insert l r).1) l

theorem insertSeq_holds {l : LibQ} {rs0 rs} (h : Holds l.q rs0) (hv : ∀ r ∈ rs, Req.Valid r) :
    Holds (insertSeq l rs).q (rs0 ++ taken (bufMax - l.q.size) rs) ∧
    (insertSeq l rs).q.version = l.q.version ∧
    ((insertSeq l rs).err = if taken (bufMax - l.q.size) rs = rs then l.err else EINSNQ) := by
  induction rs generalizing l rs0 with
  | nil => simp [insertSeq, taken, h]
  | cons r rs ih =>
    have hr := hv r (by simp)
    have hfit := h.fits
    obtain ⟨hno, hyes⟩ := C05_queue_overflow_refused l r hr
    by_cases hc : l.q.size + room r ≤ bufMax
    · obtain ⟨q', e, h1, h2, h3, h4, h5⟩ := hyes hc
      have e' : insert? l.q r = some q' := by
        unfold insert at e
        cases hh : insert? l.q r with
        | none => simp [hh, EINSNQ, ENONE] at e
        | some q => simp [hh] at e; rw [← e]
      obtain ⟨i1, i2, i3⟩ := ih (l := { l with q := q' }) (holds_insert h hr e') (fun r hr => hv r (by simp [hr]))
      have hseq : insertSeq l (r :: rs) = insertSeq { l with q := q' } rs := by
        simp [insertSeq, e]
      rw [hseq]
      have ht : taken (bufMax - l.q.size) (r :: rs) = r :: taken (bufMax - q'.size) rs := by
        rw [taken, if_pos (by omega), h1, Nat.sub_sub]
      rw [ht]
      refine ⟨by simpa using i1, by rw [i2, h4], ?_⟩
      simpa using i3
    · have e := hno (by omega)
      obtain ⟨i1, i2, i3⟩ := ih (l := { l with err := EINSNQ }) h (fun r hr => hv r (by simp [hr]))
      have hseq : insertSeq l (r :: rs) = insertSeq { l with err := EINSNQ } rs := by
        simp [insertSeq, e]
      rw [hseq]
      have ht : taken (bufMax - l.q.size) (r :: rs) = taken (bufMax - l.q.size) rs := by
        rw [taken, if_neg (by omega)]
      rw [ht]
      refine ⟨i1, i2, ?_⟩
      rw [i3]
      have hlen : ∀ f (l : List Req), (taken f l).length ≤ l.length := by
        intro f l
        induction l generalizing f with
        | nil => simp [taken]
        | cons x xs ih =>
          rw [taken]
          split
          · simpa using ih _
          · have := ih f; simp; omega
      have hne : taken (bufMax - l.q.size) rs ≠ r :: rs := by
        intro hh
        have := hlen (bufMax - l.q.size) rs
        rw [hh] at this
        simp only [List.length_cons] at this
        omega
      simp [hne]

/-- **C05** (histories) After any sequence of requests on a fresh queue, the queue has not been
overrun, the tool would execute exactly the accepted requests, and the error state is EINSNQ if and
only if some request was refused. -/
theorem C05_queue_overflow_history (rs : List Req) (hv : ∀ r ∈ rs, Req.Valid r) :
    let l := insertSeq ⟨Queue.fresh, ENONE⟩ rs
    l.q.size ≤ bufMax ∧
    (toolRun l.q (fun _ => none)).1 =
      (taken bufMax rs).map (Effect.ev ∘ asked) ++ [.setSize 0, .setNum 0] ∧
    (l.err = EINSNQ ↔ taken bufMax rs ≠ rs) := by
  have h0 : Holds (LibQ.mk Queue.fresh ENONE).q [] := ⟨rfl, rfl, Nat.zero_le _, by simp, trivial⟩
  obtain ⟨h1, h2, h3⟩ := insertSeq_holds h0 hv
  have e : bufMax - (LibQ.mk Queue.fresh ENONE).q.size = bufMax := rfl
  rw [e] at h1 h3
  refine ⟨h1.fits, ?_, ?_⟩
  · rw [toolRun_holds h1 (by rw [h2]; decide)]
    simp
  · rw [h3]
    split
    · rename_i h; simp [h, ENONE, EINSNQ]
    · rename_i h; simp [h]

example : (insertSeq ⟨Queue.fresh, ENONE⟩ demo).err = ENONE := by decide

/-- A request of the size of the whole buffer is refused, the ones around it are queued. -/
example : taken bufMax [.write 0x1000 [1], .write 0x2000 (List.replicate bufMax 0), .print [65]]
    = [.write 0x1000 [1], .print [65]] := by
  have hb : bufMax = 2097152 := rfl
  rw [taken, if_pos (by simp [room]; omega), taken, if_neg (by rw [room, List.length_replicate]; omega),
    taken, if_pos (by simp [room]; omega), taken]

/-! ### C06 -/

/-- **C06** Let the tool die after any number of single-byte changes to the process (memory bytes,
then the two writes resetting the queue). Then either everything was performed and the queue is
empty, or libpulp refuses the next request with EINSNQ and leaves the queue as it is.  In both cases
the next run of the tool only re-executes the aborted batch: memory ends up as if it had not
died. -/
theorem C06_crash_never_mixes (q₀ q : Queue) (rs : List Req) (m : Mem) (k : Nat)
    (hv : ∀ r ∈ rs, Req.Valid r) (hver : q₀.version ≤ currVersion) (hnum : q₀.num = 0)
    (hsize : q₀.size = 0) (hacc : insertAll? q₀ rs = some q) :
    let es := (toolRun q (fun _ => none)).1
    let p := applyEffects ⟨m, q⟩ ((es.flatMap Effect.bytes).take k)
    ((p.q.num = 0 ∧ p.q.size = 0 ∧ p.mem = perform m rs) ∨
      ∀ e, ensureEmptiness ⟨p.q, e⟩ = (⟨p.q, EINSNQ⟩, 1)) ∧
    (applyEffects p (toolRun p.q (fun _ => none)).1).mem = perform m rs := by
  have h0 : Holds q₀ [] := ⟨hnum, hsize, by rw [hsize]; omega, by simp, trivial⟩
  have hq : Holds q rs := by simpa using holds_insertAll h0 hv hacc
  have hver : q.version ≤ currVersion := by rw [insertAll_version hacc]; exact hver
  simp only
  rw [toolRun_holds hq hver]
  simp only [List.flatMap_append]
  generalize hw : (rs.map (Effect.ev ∘ asked)).flatMap Effect.bytes = ws
  have hin : ∀ e ∈ ws, Inside rs e := by rw [← hw]; exact inside_bytes
  have hfull : applyEffects ⟨m, q⟩ ws = ⟨perform m rs, q⟩ := by
    rw [← hw, apply_flatMap_bytes, apply_events]
  have hb : List.flatMap Effect.bytes [.setSize 0, .setNum 0] = [.setSize 0, .setNum 0] := rfl
  rw [hb, List.take_append]
  by_cases hk : k ≤ ws.length
  · -- died before the first reset
    rw [show k - ws.length = 0 by omega, List.take_zero, List.append_nil]
    obtain ⟨h1, h2⟩ := apply_inside (rs := rs) (es := ws.take k)
      (fun e he => hin e (List.mem_of_mem_take he)) ⟨m, q⟩
    generalize hp : applyEffects ⟨m, q⟩ (ws.take k) = p at h1 h2 ⊢
    obtain ⟨pm, pq⟩ := p
    simp only at h1 h2
    subst h1
    constructor
    · cases rs with
      | nil =>
        left
        refine ⟨hq.num, hq.size, ?_⟩
        funext i
        exact h2 i (by simp)
      | cons r rs =>
        right
        intro e
        unfold ensureEmptiness
        rw [if_pos (by left; simp [hq.num])]
    · rw [toolRun_holds hq hver]
      have := apply_events ⟨pm, pq⟩ rs
      unfold applyEffects at this ⊢
      rw [List.foldl_append, this]
      simp only [List.foldl_cons, List.foldl_nil, Effect.apply]
      exact perform_again h2
  · rw [List.take_of_length_le (by omega)]
    have e1 : ∀ l, applyEffects ⟨m, q⟩ (ws ++ l) = applyEffects ⟨perform m rs, q⟩ l := by
      intro l
      rw [← hfull]
      simp [applyEffects]
    rw [e1]
    by_cases hk2 : k - ws.length = 1
    · -- died between the two resets
      rw [hk2]
      simp only [List.take_succ_cons, List.take_zero, applyEffects, List.foldl_cons, List.foldl_nil,
        Effect.apply]
      have hrun : ∀ q' : Queue, q'.version ≤ currVersion → q'.size = 0 → q'.num < bufMax →
          ((toolRun q' (fun _ => none)).1).foldl Effect.apply ⟨perform m rs, q'⟩ =
            ⟨perform m rs, if q'.num = 0 then { q' with size := 0, num := 0 } else q'⟩ := by
        intro q' hv' hs' _
        have hnop : ∀ (n i j : Nat), (interpretFrom (fun _ => 0) 0 (fun _ => none) n i (j : Int)).1 = [] ∧
            ((interpretFrom (fun _ => 0) 0 (fun _ => none) n i (j : Int)).2 = .ok → n = 0 ∧ j = 0) := by
          intro n
          induction n with
          | zero => intro i j; simp [interpretFrom]
          | succ n ih =>
            intro i j
            unfold interpretFrom step
            split
            · rename_i h; simp
            · rename_i h; simp
            · rename_i ev adv h
              split at h
              · simp at h
              · simp at h
                obtain ⟨rfl, rfl⟩ := h
                have := ih (i + 1) (j + 4)
                rw [show ((j : Int) + 4) = ((j + 4 : Nat) : Int) by simp]
                refine ⟨by simpa using this.1, ?_⟩
                intro hh
                have := this.2 hh
                omega
        unfold toolRun fetch
        rw [if_neg (by omega), if_pos hs']
        simp only [ENONE, ne_eq, not_true, if_false, interpret, hs']
        have hh := hnop q'.num 0 0
        rw [show (((0 : Nat) : Int)) = 0 from rfl] at hh
        revert hh
        generalize interpretFrom (fun _ => 0) 0 (fun _ => none) q'.num 0 0 = res
        obtain ⟨evs, v⟩ := res
        rintro ⟨rfl, hok⟩
        cases v with
        | ok =>
          have := (hok rfl).1
          simp [this, Effect.apply]
        | einsnq =>
          simp
          intro hz
          rcases q' with ⟨_, _, _, _⟩
          simp_all
        | oob =>
          simp
          intro hz
          rcases q' with ⟨_, _, _, _⟩
          simp_all
      have hlt : q.num < bufMax := by
        have hle : ∀ l : List Req, (∀ r ∈ l, Req.Valid r) → l.length * 4 ≤ total l := by
          intro l
          induction l with
          | nil => simp [total]
          | cons r l ih =>
            intro hv
            have h1 := ih (fun r hr => hv r (by simp [hr]))
            have h2 := encode_le (hv r (by simp))
            have h3 : 4 ≤ r.encode.length := by cases r <;> simp [Req.encode] <;> omega
            simp only [List.length_cons, total]; omega
        have := hle rs hq.valid
        have := hq.num
        have := hq.size
        have := hq.fits
        have : bufMax = 2097152 := rfl
        omega
      constructor
      · by_cases hz : q.num = 0
        · left; exact ⟨hz, trivial, trivial⟩
        · right
          intro e
          unfold ensureEmptiness
          rw [if_pos (by left; simp; omega)]
      · have := hrun { q with size := 0 } hver rfl hlt
        rw [this]
    · -- everything done
      have : List.take (k - ws.length) [Effect.setSize 0, Effect.setNum 0] = [.setSize 0, .setNum 0] :=
        List.take_of_length_le (by simp; omega)
      rw [this]
      simp only [applyEffects, List.foldl_cons, List.foldl_nil, Effect.apply]
      refine ⟨Or.inl ⟨trivial, trivial, trivial⟩, ?_⟩
      have h0 : Holds { q with num := 0, size := 0 } [] := ⟨rfl, rfl, Nat.zero_le _, by simp, trivial⟩
      have := toolRun_holds h0 hver
      rw [this]
      rfl

/-- Dying after two of the thirteen bytes: the queue is intact and the rerun completes. -/
example :
    let es := (toolRun demoQ (fun _ => none)).1
    let p := applyEffects ⟨fun _ => 0, demoQ⟩ ((es.flatMap Effect.bytes).take 3)
    p.mem 0x1000 = 1 ∧ p.mem 0x1001 = 2 ∧ p.mem 0x1002 = 0 ∧ p.q.num = 3 := by
  decide

/-! ### C07 -/

/-- **C07**, the part that is true: if all the queued instructions but the last succeed and the last
one, a write, fails, the tool reports EINSNQ and does not reset the queue.  Missing: failures of
earlier instructions, for which the claim is false, see `C07_failed_write_reported_as_success`. -/
theorem C07_failed_write_reported_partial (q₀ q : Queue) (rs : List Req) (a : Nat) (bs : List UInt8)
    (written : Nat) (fault : Nat → Option Nat)
    (hv : ∀ r ∈ rs ++ [.write a bs], Req.Valid r) (hver : q₀.version ≤ currVersion)
    (hnum : q₀.num = 0) (hsize : q₀.size = 0)
    (hacc : insertAll? q₀ (rs ++ [.write a bs]) = some q)
    (hok : ∀ j < rs.length, fault j = none) (hfail : fault rs.length = some written) :
    toolRun q fault =
      ((rs.map asked ++ [Event.writeFailed a bs written]).map Effect.ev, some EINSNQ) := by
  have h0 : Holds q₀ [] := ⟨hnum, hsize, by rw [hsize]; omega, by simp, trivial⟩
  have h : Holds q (rs ++ [.write a bs]) := by simpa using holds_insertAll h0 hv hacc
  obtain ⟨q', e, h'⟩ := fetch_holds h (by rw [insertAll_version hacc]; exact hver)
  have hl := h'.layout
  rw [layout_append] at hl
  obtain ⟨hl1, hl2, _⟩ := hl
  have hs := h'.size
  have hf := h'.fits
  rw [total_append] at hs
  simp only [total] at hs
  have h1 := interpretFrom_layout (buf := q'.buf) (size := q'.size) (fault := fault) rs 1 0 0
    (fun r hr => hv r (by simp [hr])) hl1 (by omega) (by intro j _ hj; exact hok j (by omega))
  have hstep := step_at (fault := some written) (hv (.write a bs) (by simp)) hl2 (by omega)
  have hpos := insnSize_pos (hv (.write a bs) (by simp))
  unfold toolRun
  rw [e]
  simp only [ne_eq, not_true, if_false]
  unfold interpret
  rw [h'.num, List.length_append, List.length_singleton]
  rw [show (((0 : Nat) : Int)) = 0 from rfl] at h1
  rw [h1]
  simp only [interpretFrom, Nat.zero_add] at hstep ⊢
  rw [hfail, hstep]
  simp only
  rw [if_neg (by omega)]
  simp

example : toolRun demoQ (fun j => if j = 2 then some 0 else none)
    = ([.ev (.print [97, 98, 99]), .ev (.write 0x1000 [1, 2, 3, 4, 5]),
        .ev (.writeFailed 0x1003 [9, 9, 9, 9, 9, 9, 9, 9] 0)], some EINSNQ) :=
  C07_failed_write_reported_partial Queue.fresh demoQ
    [.print [97, 98, 99], .write 0x1000 [1, 2, 3, 4, 5]] 0x1003 [9, 9, 9, 9, 9, 9, 9, 9] 0 _
    demo_valid (by decide) rfl rfl demoQ_eq (by intro j h; simp at h; simp; omega) (by simp)

theorem perform_append (m : Mem) (a b : List Req) : perform m (a ++ b) = perform (perform m a) b := by
  induction a generalizing m with
  | nil => rfl
  | cons r a ih => cases r <;> simp [perform, ih]

/-- What a failed write leaves behind: the requests before it are performed, of its own bytes those that were written are in
place, and nothing else is touched; the queue is as it was. -/
theorem C07_failed_write_memory_partial (q₀ q : Queue) (rs : List Req) (a : Nat) (bs : List UInt8) (m : Mem)
    (written : Nat) (fault : Nat → Option Nat)
    (hv : ∀ r ∈ rs ++ [.write a bs], Req.Valid r) (hver : q₀.version ≤ 1)
    (hnum : q₀.num = 0) (hsize : q₀.size = 0)
    (hacc : insertAll? q₀ (rs ++ [.write a bs]) = some q)
    (hok : ∀ j < rs.length, fault j = none) (hfail : fault rs.length = some written) :
    applyEffects ⟨m, q⟩ (toolRun q fault).1 = ⟨perform m (rs ++ [.write a (bs.take written)]), q⟩ := by
  rw [C07_failed_write_reported_partial q₀ q rs a bs written fault hv hver hnum hsize hacc hok hfail]
  have := apply_events ⟨m, q⟩ rs
  rw [List.map_append, List.map_map]
  unfold applyEffects at this ⊢
  rw [List.foldl_append, this]
  simp [perform_append, perform, Effect.apply, Event.apply]

/-- The last write fails after three bytes. -/
example : (applyEffects ⟨fun _ => 0, demoQ⟩ (toolRun demoQ (fun j => if j = 2 then some 3 else none)).1).mem 0x1005 = 9
    ∧ (applyEffects ⟨fun _ => 0, demoQ⟩ (toolRun demoQ (fun j => if j = 2 then some 3 else none)).1).mem 0x1006 = 0 := by
  rw [C07_failed_write_memory_partial Queue.fresh demoQ
    [.print [97, 98, 99], .write 0x1000 [1, 2, 3, 4, 5]] 0x1003 [9, 9, 9, 9, 9, 9, 9, 9] (fun _ => 0) 3 _
    demo_valid (by decide) rfl rfl demoQ_eq (by intro j h; simp at h; simp; omega) (by simp)]
  decide +kernel
/-- C07 is also violated by reading outside of the queue: a failure of the first of several
instructions makes the interpreter continue at position -1. -/
theorem C07_first_write_failing_reads_outside (q₀ q : Queue) (rs : List Req) (r' : Req) (a : Nat)
    (bs : List UInt8) (written : Nat) (fault : Nat → Option Nat)
    (hv : ∀ r ∈ .write a bs :: r' :: rs, Req.Valid r) (hver : q₀.version ≤ currVersion)
    (hnum : q₀.num = 0) (hsize : q₀.size = 0)
    (hacc : insertAll? q₀ (.write a bs :: r' :: rs) = some q) (hfail : fault 0 = some written) :
    toolRun q fault = ([.ev (.writeFailed a bs written)], none) := by
  have h0 : Holds q₀ [] := ⟨hnum, hsize, by rw [hsize]; omega, by simp, trivial⟩
  have h : Holds q (.write a bs :: r' :: rs) := by simpa using holds_insertAll h0 hv hacc
  obtain ⟨q', e, h'⟩ := fetch_holds h (by rw [insertAll_version hacc]; exact hver)
  have hs := h'.size
  have hf := h'.fits
  simp only [total] at hs
  have hstep := step_at (fault := some written) (hv (.write a bs) (by simp)) h'.layout.1 (by omega)
  unfold toolRun
  rw [e]
  simp only [ne_eq, not_true, if_false]
  unfold interpret
  rw [h'.num]
  simp only [List.length_cons, interpretFrom]
  rw [show (((0 : Nat) : Int)) = 0 from rfl] at hstep
  rw [hfail, hstep]
  simp only
  have : step q'.buf (0 + -1) (fault (0 + 1)) = .oob := by
    unfold step; rw [if_pos (by omega)]
  rw [this]
  simp

/-- Six writes of 8 bytes each, of which the second one fails. -/
def badReqs : List Req :=
  [.write 0x1000 [0, 0, 0, 0, 0, 0, 0, 0], .write 0x6D01000000 [0, 0, 0, 0, 0, 0, 0, 0],
   .write 0x2000 [1, 1, 1, 1, 1, 1, 1, 1], .write 0x3000 [2, 2, 2, 2, 2, 2, 2, 2],
   .write 0x4000 [3, 3, 3, 3, 3, 3, 3, 3], .write 0x5000 [4, 4, 4, 4, 4, 4, 4, 4]]

/-- Negation of **C07** for the code as it is: the second write fails, none of the following ones is
executed, and the tool nevertheless reports success and resets the queue, because after the failure
(tools/insn_queue.c:45 returns -1, common/insn_queue.c:116 adds it to the pc) decoding continues in
the middle of the data. -/
theorem C07_failed_write_reported_as_success :
    ∃ q, insertAll? Queue.fresh badReqs = some q ∧
      (∀ r ∈ badReqs, Req.Valid r) ∧
      ∃ s, toolRun q (fun j => if j = 1 then some 0 else none) =
        ([.ev (.write 0x1000 [0, 0, 0, 0, 0, 0, 0, 0]),
          .ev (.writeFailed 0x6D01000000 [0, 0, 0, 0, 0, 0, 0, 0] 0),
          .ev (.print s), .setSize 0, .setNum 0], some ENONE) :=
  ⟨_, rfl, by simp [badReqs, Req.Valid], [], by decide +kernel⟩

/-! ### C08 -/

/-- **C08** A queue whose version is newer than the tool's is not executed at all. -/
theorem C08_newer_queue_never_executed (q : Queue) (fault : Nat → Option Nat)
    (h : 1 < q.version) : toolRun q fault = ([], some EOLDULP) := by
  have h : q.version > currVersion := h
  simp [toolRun, fetch, h, EOLDULP, ENONE]

example : toolRun { demoQ with version := 2 } (fun _ => none) = ([], some EOLDULP) :=
  C08_newer_queue_never_executed _ _ (by decide)

/-! ### More cases -/

example : interpret demoQ (fun _ => none) = (demo.map asked, .ok) :=
  C04_queue_round_trip_in_process Queue.fresh demoQ demo demo_valid rfl rfl demoQ_eq

/-- One request that fits, with 56 bytes queued, and one that does not. -/
example := (C05_queue_overflow_refused ⟨demoQ, ENONE⟩ (.write 0x1000 [1, 2, 3]) (by simp [Req.Valid])).2 (by decide)

example := (C05_queue_overflow_refused ⟨{ demoQ with size := bufMax }, ENONE⟩ (.write 0x1000 [1, 2, 3]) (by simp [Req.Valid])).1 (by decide)

example := C05_queue_overflow_history demo demo_valid

/-- The tool dies after three bytes of its writes. -/
example := C06_crash_never_mixes Queue.fresh demoQ demo (fun _ => 0) 3 demo_valid (by decide) rfl rfl demoQ_eq

/-- The first of three requests is a write that fails. -/
example : ∃ q, insertAll? Queue.fresh [.write 0x1000 [1, 2], .print [97], .print [98]] = some q ∧
    toolRun q (fun _ => some 0) = ([.ev (.writeFailed 0x1000 [1, 2] 0)], none) :=
  ⟨_, rfl, C07_first_write_failing_reads_outside Queue.fresh _ [.print [98]] (.print [97]) 0x1000 [1, 2] 0 (fun _ => some 0)
    (by simp [Req.Valid]) (by decide) rfl rfl rfl rfl⟩

example := C07_failed_write_reported_as_success

end Verif.InsnQueue
