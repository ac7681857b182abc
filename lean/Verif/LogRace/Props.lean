import Mathlib.Data.List.GetD
import Verif.LogRace.Lemmas
import Verif.MsgQueue.Props

/-!
# C180, C181, C182: the message log when several threads log at once
-/

namespace Verif.LogRace

open Verif.MsgQueue Verif.MsgQueue.Spec

/-! ### C180 -/

/-- **C180.**  However the steps of any number of threads that log any messages follow on each other, no thread reads or
writes outside of the ring, and neither do the numbers of the log point outside of it. -/
theorem C180_in_bounds (N : Nat) (hN : 0 < N) (P : List UInt8 → Prop) (s : Sys) (st : Steps N P Sys.start s) (i : Nat) :
    act N s.sh (s.th i).1 (s.th i).2 ≠ none ∧ s.sh.top < N ∧ s.sh.bottom < N := by
  have h := safe_steps hN (safe_start hN) st
  obtain ⟨_, _, _, e, _⟩ := act_safe hN h.sh (h.lo i) (h.own i)
  exact ⟨by simp [e], h.sh.top, h.sh.bottom⟩

/-! ### C181 -/

/-- The invariant with which loops end. -/
structure Live (N : Nat) (s : Sys) : Prop where
  safe : Safe N s
  sh : LiveSh N s.sh
  lo : ∀ i, LiveLo N s.sh (s.th i).1 (s.th i).2
  msg : ∀ i, (s.th i).1 ≠ .idle → LiveMsg N s.sh (s.th i).2

theorem live_start {N : Nat} (hN : 0 < N) : Live N Sys.start :=
  ⟨safe_start hN, ⟨⟨by simp [Sys.start, Shared.start], by simp [Sys.start, Shared.start]; omega⟩,
    by simp [Sys.start, Shared.start], by simp [Sys.start, Shared.start]⟩, fun _ => trivial,
    fun _ h => absurd rfl h⟩

theorem format_first {N : Nat} (hN : 2 ≤ N) {m : List UInt8} (hm : m ≠ []) (h0 : ∀ c ∈ m, c ≠ 0) (msg : Nat → UInt8) :
    format N m msg 0 ≠ 0 := by
  cases m with
  | nil => exact absurd rfl hm
  | cons a m =>
    simp only [format]
    rw [if_pos (by simp; omega)]
    exact h0 a (by simp)

/-- One step of thread `i` in a push. -/
theorem live_go {N : Nat} (h2 : 2 ≤ N) (hN : N ≤ 2 ^ 30) {s : Sys} (h : Live N s) {i : Nat} {sh : Shared} {pc : Pc}
    {l : Local} (hi : (s.th i).1 ≠ .idle) (e : act N s.sh (s.th i).1 (s.th i).2 = some (sh, pc, l)) :
    Live N ⟨sh, Function.update s.th i (pc, l)⟩ ∧ rank N pc l < rank N (s.th i).1 (s.th i).2 := by
  obtain ⟨g1, g2, g3, g4⟩ := act_live hN h.safe.sh (h.safe.lo i) h.sh (h.lo i) (h.msg i hi) hi e
  obtain ⟨sh', pc', l', e', _, _, _, e1, e2, e3⟩ := act_safe (by omega) h.safe.sh (h.safe.lo i) (h.safe.own i)
  rw [e] at e'
  simp only [Option.some.injEq, Prod.mk.injEq] at e'
  obtain ⟨rfl, rfl, rfl⟩ := e'
  have hbyte : ∀ l0 : Local, byte sh l0 0 = byte s.sh l0 0 := by
    intro l0; simp [byte, e1]
  refine ⟨⟨safe_step (P := fun _ => True) (by omega) h.safe (Step.go hi e), g1, ?_, ?_⟩, g4⟩
  · intro j
    simp only [upd]
    by_cases hj : j = i
    · simpa [hj] using g2
    · simpa [hj] using liveLo_mono (h.lo j) g3
  · intro j
    simp only [upd]
    by_cases hj : j = i
    · intro _
      rw [if_pos hj]
      obtain ⟨m1, m2, m3⟩ := h.msg i hi
      refine ⟨by simp only [e3]; exact m1, by simp only [e3]; exact m2, ?_⟩
      rw [hbyte]
      have : byte s.sh l 0 = byte s.sh (s.th i).2 0 := by simp [byte, e2]
      rw [this]; exact m3
    · rw [if_neg hj]
      intro hne
      obtain ⟨m1, m2, m3⟩ := h.msg j hne
      exact ⟨m1, m2, by rw [hbyte]; exact m3⟩

theorem live_step {N : Nat} (h2 : 2 ≤ N) (hN : N ≤ 2 ^ 30) {s s' : Sys} (h : Live N s)
    (st : Step N (Ordinary N) s s') : Live N s' := by
  have hsafe := safe_step (by omega) h.safe st
  cases st with
  | @say i m k1 k2 k3 =>
    have hlen : 1 ≤ m.length := by cases m with
      | nil => exact absurd rfl k2.1
      | cons => simp
    have hf := format_first h2 k2.1 k3 s.sh.msg
    obtain ⟨e1, e2, e3⟩ := h.sh
    refine ⟨hsafe, ⟨e1, e2, e3⟩, ?_, ?_⟩
    · intro j
      simp only [said, upd]
      by_cases hj : j = i
      · simp [hj, LiveLo]
      · simpa [hj] using liveLo_mono (sh' := { s.sh with msg := format N m s.sh.msg }) (h.lo j) id
    · intro j
      simp only [said, upd]
      by_cases hj : j = i
      · intro _
        rw [if_pos hj]
        exact ⟨by simp only [enter]; omega, k2.2, hf⟩
      · rw [if_neg hj]
        intro hne
        obtain ⟨m1, m2, m3⟩ := h.msg j hne
        refine ⟨m1, m2, ?_⟩
        simp only [byte] at m3 ⊢
        cases hsrc : (s.th j).2.src with
        | none => exact hf
        | some b => simpa [hsrc] using m3
  | @stamp i b k1 k2 k3 =>
    have hlen : 1 ≤ b.length := by cases b with
      | nil => exact absurd rfl k2.1
      | cons => simp
    refine ⟨hsafe, h.sh, ?_, ?_⟩
    · intro j
      simp only [stamped, upd]
      by_cases hj : j = i
      · simp [hj, LiveLo]
      · simpa [hj] using h.lo j
    · intro j
      simp only [stamped, upd]
      by_cases hj : j = i
      · intro _
        rw [if_pos hj]
        refine ⟨by simp only [enter]; omega, k2.2, ?_⟩
        cases b with
        | nil => exact absurd rfl k2.1
        | cons a b => exact k3 a (by simp)
      · rw [if_neg hj]
        exact h.msg j
  | go k1 k2 => exact (live_go h2 hN h k1 k2).1

theorem live_steps {N : Nat} (h2 : 2 ≤ N) (hN : N ≤ 2 ^ 30) {s s' : Sys} (h : Live N s)
    (st : Steps N (Ordinary N) s s') : Live N s' := by
  induction st with
  | refl => exact h
  | tail _ b ih => exact live_step h2 hN ih b

theorem rank_le (N : Nat) (pc : Pc) (l : Local) (sh : Shared) (h : LiveLo N sh pc l) :
    rank N pc l ≤ 10 + 3 * N * (N + 3) + (N + 1) := by
  have key : ∀ x : Int, x ≤ 3 * N → x.toNat * (N + 3) ≤ 3 * N * (N + 3) := by
    intro x hx
    exact Nat.mul_le_mul_right (N + 3) (by omega)
  cases pc <;> simp only [LiveLo] at h <;> simp only [rank] <;> try omega
  · have := key _ h.2.2.1; omega
  · have := key _ h.2.1; omega
  · have := key (l.distance + l.size - l.travel) (by omega)
    have : (if l.bottom = 0 then 1 else N - l.bottom + 1) ≤ N + 1 := by
      by_cases hb : l.bottom = 0
      · rw [if_pos hb]; omega
      · rw [if_neg hb]; omega
    omega

/-- **C181 (partial).**  As long as no message is empty or of exactly the size of the ring: whatever other threads do, a
thread is through with its message after a number of steps that depends on the size of the ring only. -/
theorem C181_returns_partial (N : Nat) (h2 : 2 ≤ N) (hN : N ≤ 2 ^ 30) (s t : Sys)
    (st : Steps N (Ordinary N) Sys.start s) (i k : Nat) (d : During N (Ordinary N) i s k t) :
    k ≤ 11 + N + 3 * N * (N + 3) := by
  have hs := live_steps h2 hN (live_start (by omega)) st
  have key : Live N t ∧ k + rank N (t.th i).1 (t.th i).2 ≤ rank N (s.th i).1 (s.th i).2 := by
    induction d with
    | refl => exact ⟨hs, by omega⟩
    | own _ hne e ih =>
      obtain ⟨g1, g2⟩ := live_go h2 hN ih.1 hne e
      refine ⟨g1, ?_⟩
      have := ih.2
      simp only [Function.update_self]
      omega
    | other _ b hb ih => exact ⟨live_step h2 hN ih.1 b, by rw [hb]; exact ih.2⟩
  have := rank_le N _ _ _ (hs.lo i)
  omega

/-- **C181 (partial).**  Under the same conditions the number of bytes that a reader of the log is told to read is
always one that the ring has. -/
theorem C181_distance_partial (N : Nat) (h2 : 2 ≤ N) (hN : N ≤ 2 ^ 30) (s : Sys)
    (st : Steps N (Ordinary N) Sys.start s) : 0 ≤ s.sh.distance ∧ s.sh.distance < N :=
  (live_steps h2 hN (live_start (by omega)) st).sh.dist

/-! ### Runs -/

/-- The next step of the thread that went last. -/
theorem go_on {N : Nat} {P : List UInt8 → Prop} {s0 : Sys} {sh sh' : Shared} {f : Nat → Pc × Local} {i : Nat}
    {pc pc' : Pc} {l l' : Local} (st : Steps N P s0 ⟨sh, Function.update f i (pc, l)⟩) (hne : pc ≠ .idle)
    (e : act N sh pc l = some (sh', pc', l')) : Steps N P s0 ⟨sh', Function.update f i (pc', l')⟩ := by
  have := Steps.tail st (Step.go (i := i) (by simpa using hne) (by simpa using e))
  simpa using this

theorem alone_on {N : Nat} {s0 : Sys} {sh sh' : Shared} {f : Nat → Pc × Local} {i : Nat}
    {pc pc' : Pc} {l l' : Local} (st : Alone N i s0 ⟨sh, Function.update f i (pc, l)⟩) (hne : pc ≠ .idle)
    (e : act N sh pc l = some (sh', pc', l')) : Alone N i s0 ⟨sh', Function.update f i (pc', l')⟩ := by
  have := Alone.tail st (by simpa using hne) (by simpa using e)
  simpa using this

theorem alone_steps {N : Nat} {P : List UInt8 → Prop} {i : Nat} {s0 s t : Sys} (st : Steps N P s0 s)
    (a : Alone N i s t) : Steps N P s0 t := by
  induction a with
  | refl => exact st
  | tail _ hne e ih => exact Steps.tail ih (Step.go hne e)

/-- `skipNuls` is the loop of the steps `skip`. -/
theorem skip_run {N : Nat} {s0 : Sys} {sh : Shared} {f : Nat → Pc × Local} {i : Nat} (fuel : Nat) (l : Local)
    (b t : Nat) (h : skipNuls N sh.buf fuel l.bottom l.travel = .ok (b, t))
    (st : Alone N i s0 ⟨sh, Function.update f i (.skip, l)⟩) :
    Alone N i s0 ⟨sh, Function.update f i
      (.evict, { l with bottom := b, travel := t, distance := l.distance - t })⟩ := by
  induction fuel generalizing l with
  | zero => simp [skipNuls] at h
  | succ fuel ih =>
    unfold skipNuls at h
    by_cases h1 : N ≤ l.bottom
    · simp [h1] at h
    · rw [if_neg h1] at h
      by_cases h2 : sh.buf l.bottom = 0
      · rw [if_pos h2] at h
        have := ih { l with bottom := (l.bottom + 1) % N, travel := l.travel + 1 } h
          (alone_on st (by simp) (by simp only [act]; rw [if_neg h1, if_pos h2]))
        simpa using this
      · rw [if_neg h2] at h
        simp only [Outcome.ok.injEq, Prod.mk.injEq] at h
        obtain ⟨rfl, rfl⟩ := h
        exact alone_on st (by simp) (by simp only [act]; rw [if_neg h1, if_neg h2])

/-- `MsgQueue.evict` is the loop of the steps `evict`, `strlen` and `skip`. -/
theorem evict_run {N : Nat} {s0 : Sys} {sh : Shared} {f : Nat → Pc × Local} {i : Nat} (fuel : Nat) (l : Local)
    (b : Nat) (d : Int) (h : MsgQueue.evict N sh.buf l.size fuel l.bottom l.distance = .ok (b, d))
    (st : Alone N i s0 ⟨sh, Function.update f i (.evict, l)⟩) :
    ∃ t, Alone N i s0 ⟨sh, Function.update f i (.copy, { l with bottom := b, distance := d, travel := t })⟩ := by
  induction fuel generalizing l with
  | zero => simp [MsgQueue.evict] at h
  | succ fuel ih =>
    unfold MsgQueue.evict at h
    by_cases h1 : tooFull N l.distance l.size = true
    · rw [if_pos h1] at h
      by_cases h2 : N ≤ l.bottom
      · simp [h2] at h
      · rw [if_neg h2] at h
        cases h3 : strlen sh.buf l.bottom (N - l.bottom) with
        | none => simp [h3] at h
        | some len =>
          simp only [h3] at h
          cases h4 : skipNuls N sh.buf fuel ((l.bottom + (len + 1)) % N) (len + 1) with
          | outOfBounds => simp [h4] at h
          | running => simp [h4] at h
          | ok r =>
            obtain ⟨b', t'⟩ := r
            simp only [h4] at h
            have s1 := alone_on st (pc' := .strlen) (l' := l) (sh' := sh) (by simp) (by simp [act, h1])
            have s2 := alone_on s1 (pc' := .skip) (sh' := sh)
              (l' := { l with travel := len + 1, bottom := (l.bottom + (len + 1)) % N }) (by simp)
              (by simp only [act]; rw [if_neg h2]; simp only [h3])
            have s3 := skip_run fuel _ b' t' h4 s2
            simpa using ih { l with bottom := b', travel := t', distance := l.distance - t' } h s3
    · rw [if_neg h1] at h
      simp only [Outcome.ok.injEq, Prod.mk.injEq] at h
      obtain ⟨rfl, rfl⟩ := h
      exact ⟨l.travel, alone_on st (by simp) (by simp [act, h1])⟩

theorem format_eq {N : Nat} (m : List UInt8) (msg : Nat → UInt8) (h : m.length + 1 ≤ N) (j : Nat) (hj : j < m.length + 1) :
    format N m msg j = (m ++ [0]).getD j 0 := by
  simp only [format]
  have : min m.length (N - 1) = m.length := by omega
  rw [this]
  by_cases h1 : j < m.length
  · rw [if_pos h1]; simp [List.getD, h1, List.getElem?_append_left]
  · have : j = m.length := by omega
    subst this
    simp [List.getD]

/-- A push that nobody disturbs, of a message that `msg` holds. -/
theorem run_alone {N : Nat} (fuel : Nat) (s : Sys) (i : Nat) (m : List UInt8)
    (hs : s.th i = (.loadTop, enter none (m.length + 1)))
    (hmsg : m.length + 1 ≤ N → ∀ j, j < m.length + 1 → s.sh.msg j = (m ++ [0]).getD j 0)
    (h0 : ∀ c cs, m = c :: cs → c ≠ 0) (q : MsgQ)
    (h : push N fuel s.sh.queue m = .ok q) :
    ∃ t, Alone N i s t ∧ (t.th i).1 = .idle ∧ t.sh.queue = q ∧ ∀ j, j ≠ i → t.th j = s.th j := by
  have fin : ∀ (sh : Shared) (l : Local), Alone N i s ⟨sh, Function.update s.th i (.idle, l)⟩ →
      sh.queue = q → ∃ t, Alone N i s t ∧ (t.th i).1 = .idle ∧ t.sh.queue = q ∧ ∀ j, j ≠ i → t.th j = s.th j :=
    fun sh l a e => ⟨_, a, by simp, e, fun j hj => by simp [hj]⟩
  have s0 : Alone N i s ⟨s.sh, Function.update s.th i (.loadTop, enter none (m.length + 1))⟩ := by
    rw [← hs, Function.update_eq_self]; exact Alone.refl
  have s1 := alone_on s0 (by simp) rfl
  have s2 := alone_on s1 (by simp) rfl
  have s3 := alone_on s2 (by simp) rfl
  simp only [enter] at s3
  unfold push at h
  simp only at h
  by_cases hc : m = [] ∨ N < m.length + 1
  · rw [if_pos hc] at h
    simp only [Outcome.ok.injEq] at h
    have hc' : byte s.sh (enter none (m.length + 1)) 0 = 0 ∨ N < m.length + 1 := by
      by_cases hN : N < m.length + 1
      · exact Or.inr hN
      · rcases hc with rfl | hc
        · left
          simpa [byte, enter] using hmsg (by omega) 0 (by simp)
        · exact absurd hc hN
    have s4 := alone_on s3 (pc' := .idle) (by simp) (by simp only [act]; rw [if_pos (by exact hc')])
    exact fin _ _ s4 h
  · rw [if_neg hc] at h
    have hsz : m.length + 1 ≤ N := by omega
    have hm : m ≠ [] := fun e => hc (Or.inl e)
    have hlen : 1 ≤ m.length := by cases m with
      | nil => exact absurd rfl hm
      | cons => simp
    have s4 := alone_on s3 (pc' := .pad) (by simp) (by
      simp only [act]
      rw [if_neg]
      · rintro (h' | h')
        · have := hmsg hsz 0 (by omega)
          simp only [byte] at h'
          rw [this] at h'
          cases m with
          | nil => exact hm rfl
          | cons c cs => exact h0 c cs rfl (by simpa using h')
        · omega)
    have hq : s.sh.queue.top = s.sh.top := rfl
    -- the copy and the three stores
    have last : ∀ (sh : Shared) (l : Local), sh.msg = s.sh.msg → l.src = none → l.size = m.length + 1 →
        ¬ N < l.top + (m.length + 1) →
        Alone N i s ⟨sh, Function.update s.th i (.copy, l)⟩ →
        (⟨blit sh.buf l.top (m ++ [0]), (l.top + (m.length + 1)) % N, l.bottom, l.distance + (m.length + 1 : Nat)⟩ : MsgQ) = q →
        ∃ t, Alone N i s t ∧ (t.th i).1 = .idle ∧ t.sh.queue = q ∧ ∀ j, j ≠ i → t.th j = s.th j := by
      intro sh l k1 k2 k3 k4 a e
      have a1 := alone_on a (by simp) (by simp only [act]; rw [if_neg (by rw [k3]; exact k4)])
      have a2 := alone_on a1 (by simp) rfl
      have a3 := alone_on a2 (by simp) rfl
      have a4 := alone_on a3 (by simp) rfl
      refine fin _ _ a4 ?_
      rw [← e]
      simp only [Shared.queue, k3, MsgQ.mk.injEq, and_true, true_and]
      funext j
      simp only [write, blit, k3, List.length_append, List.length_cons, List.length_nil, Nat.zero_add]
      by_cases hj : l.top ≤ j ∧ j < l.top + (m.length + 1)
      · rw [if_pos hj, if_pos hj]
        simp only [byte, k2, k1]
        exact hmsg hsz _ (by omega)
      · rw [if_neg hj, if_neg hj]
    by_cases hw : N ≤ s.sh.top + (m.length + 1)
    · simp only [hq, hw, decide_true, true_and, ↓reduceIte] at h
      by_cases ht : N < s.sh.top
      · simp [ht] at h
      · rw [if_neg ht] at h
        have s5 := alone_on s4 (pc' := .evict) (by simp) (by simp only [act]; rw [if_pos hw, if_neg ht])
        cases hev : MsgQueue.evict N (clear s.sh.queue.buf s.sh.top (N - s.sh.top)) (m.length + 1) fuel s.sh.queue.bottom
            (s.sh.queue.distance + (N - s.sh.top : Nat)) with
        | outOfBounds => simp [hev] at h
        | running => simp [hev] at h
        | ok r =>
          obtain ⟨b, d⟩ := r
          simp only [hev] at h
          by_cases hb : N < 0 + (m.length + 1)
          · rw [if_pos hb] at h; cases h
          · rw [if_neg hb] at h
            simp only [Outcome.ok.injEq] at h
            obtain ⟨t, s6⟩ := evict_run fuel _ b d hev s5
            exact last _ _ (by rfl) (by rfl) (by rfl) (by exact hb) s6 h
    · simp only [hq, hw, decide_false, Bool.false_eq_true, false_and, ↓reduceIte] at h
      have s5 := alone_on s4 (pc' := .evict) (by simp) (by simp only [act]; rw [if_neg hw])
      cases hev : MsgQueue.evict N s.sh.queue.buf (m.length + 1) fuel s.sh.queue.bottom s.sh.queue.distance with
      | outOfBounds => simp [hev] at h
      | running => simp [hev] at h
      | ok r =>
        obtain ⟨b, d⟩ := r
        simp only [hev] at h
        by_cases hb : N < s.sh.top + (m.length + 1)
        · simp [hb] at h
        · rw [if_neg hb] at h
          simp only [Outcome.ok.injEq] at h
          obtain ⟨t, s6⟩ := evict_run fuel _ b d hev s5
          exact last _ _ (by rfl) (by rfl) (by rfl) (by exact hb) s6 h

/-- A push that nobody disturbs. -/
theorem push_alone {N : Nat} (fuel : Nat) (s : Sys) (i : Nat) (m : List UInt8) (h0 : ∀ c ∈ m, c ≠ 0) (q : MsgQ)
    (h : push N fuel s.sh.queue m = .ok q) :
    ∃ t, Alone N i (said N s i m) t ∧ (t.th i).1 = .idle ∧ t.sh.queue = q ∧ ∀ j, j ≠ i → t.th j = s.th j := by
  obtain ⟨t, a, b, c, d⟩ := run_alone fuel (said N s i m) i m (by simp [said])
    (fun hN j hj => format_eq m _ hN j hj) (fun c cs e => h0 c (by simp [e])) q h
  exact ⟨t, a, b, c, fun j hj => by rw [d j hj]; simp [said, hj]⟩

theorem act_msg {N : Nat} {sh sh' : Shared} {pc pc' : Pc} {l l' : Local} (e : act N sh pc l = some (sh', pc', l')) :
    sh'.msg = sh.msg := by
  cases pc <;> simp only [act] at e <;> grind

theorem alone_msg {N i : Nat} {s t : Sys} (a : Alone N i s t) : t.sh.msg = s.sh.msg := by
  induction a with
  | refl => rfl
  | tail _ _ e ih => rw [← ih]; exact act_msg e

/-! ### One thread's steps are determined -/

theorem alone_trans {N i : Nat} {s t u : Sys} (a : Alone N i s t) (b : Alone N i t u) : Alone N i s u := by
  induction b with
  | refl => exact a
  | tail _ h e ih => exact Alone.tail ih h e

theorem alone_head {N i : Nat} {s t : Sys} (a : Alone N i s t) : s = t ∨ ((s.th i).1 ≠ .idle ∧
    ∃ sh pc l, act N s.sh (s.th i).1 (s.th i).2 = some (sh, pc, l) ∧
      Alone N i ⟨sh, Function.update s.th i (pc, l)⟩ t) := by
  induction a with
  | refl => exact Or.inl rfl
  | tail a h e ih =>
    right
    rcases ih with rfl | ⟨h1, sh, pc, l, h2, h3⟩
    · exact ⟨h, _, _, _, e, Alone.refl⟩
    · exact ⟨h1, sh, pc, l, h2, Alone.tail h3 h e⟩

theorem alone_linear {N i : Nat} {s t u : Sys} (a : Alone N i s t) (ht : (t.th i).1 = .idle) (b : Alone N i s u) :
    Alone N i u t := by
  induction b with
  | refl => exact a
  | tail b h e ih =>
    rcases alone_head ih with rfl | ⟨_, sh, pc, l, h2, h3⟩
    · exact absurd ht h
    · rw [e] at h2
      simp only [Option.some.injEq, Prod.mk.injEq] at h2
      obtain ⟨rfl, rfl, rfl⟩ := h2
      exact h3

theorem alone_det {N i : Nat} {s t u : Sys} (a : Alone N i s t) (ht : (t.th i).1 = .idle) (b : Alone N i s u)
    (hu : (u.th i).1 = .idle) : u = t := by
  rcases alone_head (alone_linear a ht b) with rfl | ⟨h, _⟩
  · rfl
  · exact absurd hu h

/-! ### C182 -/

theorem turns_push {N fuel : Nat} {s t : Sys} {ms : List (Nat × List UInt8)} (h : Turns N s ms t)
    (hnul : ∀ m ∈ ms.map (·.2), ∀ b ∈ m, b ≠ 0) (q : MsgQ)
    (hq : pushAll N fuel s.sh.queue (ms.map (·.2)) = .ok q) : t.sh.queue = q := by
  induction h with
  | nil => simpa [pushAll] using hq
  | @cons s t u i m ms h1 h2 h3 h4 ih =>
    simp only [List.map_cons, pushAll] at hq
    cases hp : push N fuel s.sh.queue m with
    | outOfBounds => simp [hp] at hq
    | running => simp [hp] at hq
    | ok q1 =>
      simp only [hp] at hq
      obtain ⟨t', a, b, c, _⟩ := push_alone fuel s i m (hnul m (by simp)) q1 hp
      have : t = t' := alone_det a b h2 h3
      subst this
      exact ih (fun m hm => hnul m (by simp only [List.map_cons, List.mem_cons]; exact Or.inr hm)) (by rw [c]; exact hq)

/-- **C182 (partial).**  As long as no two threads log at the same time, it makes no difference which of them logs: what
is shown are the newest messages, whole and in the order in which they were logged, at least one if there was any. -/
theorem C182_turns_partial (N : Nat) (hN : N ≤ 2 ^ 30) (ms : List (Nat × List UInt8))
    (hnul : ∀ m ∈ ms.map (·.2), ∀ b ∈ m, b ≠ 0) (hsz : ∀ m ∈ ms.map (·.2), m.length + 1 ≠ N) (t : Sys)
    (h : Turns N Sys.start ms t) :
    ∃ k, records (printed N t.sh.queue) = newest k (loggable N (ms.map (·.2))) ∧
      k ≤ (loggable N (ms.map (·.2))).length ∧ (loggable N (ms.map (·.2)) ≠ [] → 1 ≤ k) := by
  obtain ⟨q, k, e, r⟩ := C01_log_shows_newest_partial N (2 * N + 2) hN (by omega) _ hnul hsz
  exact ⟨k, by rw [turns_push h hnul q e]; exact r⟩

/-- **C182 (partial).**  And a thread that nobody disturbs comes to the end of its message, of which `MsgQueue.push` says
what becomes of the log; other threads are where they were. -/
theorem C182_alone_partial (N : Nat) (fuel : Nat) (s : Sys) (i : Nat) (m : List UInt8) (h0 : ∀ c ∈ m, c ≠ 0) (q : MsgQ)
    (h : push N fuel s.sh.queue m = .ok q) :
    ∃ t, Alone N i (said N s i m) t ∧ (t.th i).1 = .idle ∧ t.sh.queue = q ∧ ∀ j, j ≠ i → t.th j = s.th j :=
  push_alone fuel s i m h0 q h

/-- Two threads, of which the first has formatted its message when the second formats its own. -/
theorem two_say {N fuel : Nat} {P : List UInt8 → Prop} {a b c : List UInt8} (ha : P a) (hb : P b)
    (h0a : ∀ x ∈ a, x ≠ 0) (h0b : ∀ x ∈ b, x ≠ 0) (hlen : c.length = a.length) (hc : ∀ x xs, c = x :: xs → x ≠ 0)
    (hN : b.length + 1 ≤ N)
    (hmsg : a.length + 1 ≤ N → ∀ j, j < c.length + 1 → format N b (format N a fun _ => 0) j = (c ++ [0]).getD j 0)
    {q : MsgQ} (hq : pushAll N fuel init [c, b] = .ok q) :
    ∃ s, Steps N P Sys.start s ∧ (∀ i, (s.th i).1 = .idle) ∧ s.sh.queue = q := by
  have s1 : Steps N P Sys.start (said N Sys.start 0 a) := Steps.tail Steps.refl (Step.say rfl ha h0a)
  have s2 : Steps N P Sys.start (said N (said N Sys.start 0 a) 1 b) :=
    Steps.tail s1 (Step.say (by simp [said, Sys.start]) hb h0b)
  simp only [pushAll] at hq
  cases hp : push N fuel init c with
  | outOfBounds => simp [hp] at hq
  | running => simp [hp] at hq
  | ok q1 =>
    simp only [hp] at hq
    cases hp2 : push N fuel q1 b with
    | outOfBounds => simp [hp2] at hq
    | running => simp [hp2] at hq
    | ok q2 =>
      simp only [hp2, Outcome.ok.injEq] at hq
      subst hq
      obtain ⟨t, a1, a2, a3, a4⟩ := run_alone fuel (said N (said N Sys.start 0 a) 1 b) 0 c (by simp [said, hlen])
        (fun h => hmsg (by omega)) hc q1 hp
      obtain ⟨u, b1, b2, b3, b4⟩ := run_alone fuel t 1 b (by rw [a4 1 (by simp)]; simp [said])
        (fun h j hj => by rw [alone_msg a1]; exact format_eq b _ h j hj) (fun x xs e => h0b x (by simp [e])) q2
        (by rw [a3]; exact hp2)
      refine ⟨u, alone_steps (alone_steps s2 a1) b1, ?_, b3⟩
      intro i
      by_cases h1 : i = 1
      · subst h1; exact b2
      · rw [b4 i h1]
        by_cases h2 : i = 0
        · subst h2; exact a2
        · rw [a4 i h2]; simp [said, h1, h2, Sys.start]

/-- **C182 is false.**  Of two messages of the same length that are logged at the same time the first can be lost and the
second be shown twice. -/
theorem C182_mixed (N : Nat) (hN : N ≤ 2 ^ 30) (a b : List UInt8) (hab : a.length = b.length) (hb : b ≠ [])
    (h0a : ∀ x ∈ a, x ≠ 0) (h0b : ∀ x ∈ b, x ≠ 0) (hfit : footprint [a, b] < N) (P : List UInt8 → Prop) (pa : P a)
    (pb : P b) :
    ∃ s, Steps N P Sys.start s ∧ (∀ i, (s.th i).1 = .idle) ∧ records (printed N s.sh.queue) = [b, b] := by
  obtain ⟨q, e, r⟩ := C03_nothing_dropped_while_room N 1 hN (by omega) [b, b]
    (by intro m hm; simp at hm; subst hm; exact ⟨hb, h0b⟩) (by simpa [footprint, hab] using hfit)
  simp only [footprint, List.map_cons, List.map_nil, List.sum_cons, List.sum_nil] at hfit
  obtain ⟨s, s1, s2, s3⟩ := two_say (c := b) pa pb h0a h0b hab.symm (fun x xs e => h0b x (by simp [e])) (by omega)
    (fun h j hj => format_eq b _ (by omega) j hj) e
  exact ⟨s, s1, s2, by rw [s3]; exact r⟩

/-- A push while there is room. -/
theorem push_room {N fuel : Nat} (hN : N ≤ 2 ^ 30) (q : MsgQ) (m : List UInt8) (hm : m ≠ []) (h1 : q.top + (m.length + 1) < N)
    (h2 : 0 ≤ q.distance) (h3 : q.distance + (m.length + 1 : Nat) < N) :
    push N (fuel + 1) q m = .ok ⟨blit q.buf q.top (m ++ [0]), q.top + (m.length + 1), q.bottom,
      q.distance + (m.length + 1 : Nat)⟩ := by
  have hw : ¬ N ≤ q.top + (m.length + 1) := by omega
  have hf : tooFull N q.distance (m.length + 1) = false := by
    simp only [tooFull, decide_eq_false_iff_not]
    rw [Int.emod_eq_of_lt (by omega) (by omega)]
    omega
  unfold push
  simp only [hm, false_or, hw, decide_false, Bool.false_eq_true, false_and, ↓reduceIte, MsgQueue.evict, hf]
  rw [if_neg (by omega), if_neg (by omega), Nat.mod_eq_of_lt h1]

theorem blit_blit (buf : Nat → UInt8) (p : Nat) (x y : List UInt8) :
    blit (blit buf p x) (p + x.length) y = blit buf p (x ++ y) := by
  funext j
  simp only [blit, List.length_append]
  by_cases h1 : p + x.length ≤ j ∧ j < p + x.length + y.length
  · rw [if_pos h1, if_pos (by omega)]
    rw [List.getD_append_right _ _ _ _ (by omega)]
    congr 1; omega
  · rw [if_neg h1]
    by_cases h2 : p ≤ j ∧ j < p + x.length
    · rw [if_pos h2, if_pos (by omega), List.getD_append _ _ _ _ (by omega)]
    · rw [if_neg h2, if_neg (by omega)]

/-- **C182 is false.**  If the message that is formatted second is the shorter one, what is left of the first message
behind it is shown as a message of its own, one which nobody has logged. -/
theorem C182_torn (N : Nat) (hN : N ≤ 2 ^ 30) (a b : List UInt8) (hab : b.length + 1 < a.length) (hb : b ≠ [])
    (h0a : ∀ x ∈ a, x ≠ 0) (h0b : ∀ x ∈ b, x ≠ 0) (hfit : footprint [a, b] < N) (P : List UInt8 → Prop) (pa : P a)
    (pb : P b) :
    ∃ s, Steps N P Sys.start s ∧ (∀ i, (s.th i).1 = .idle) ∧
      records (printed N s.sh.queue) = [b, a.drop (b.length + 1), b] := by
  have hdl : (a.drop (b.length + 1)).length = a.length - (b.length + 1) := List.length_drop
  have hdn : a.drop (b.length + 1) ≠ [] := by
    intro h; rw [h] at hdl; simp at hdl; omega
  simp only [footprint, List.map_cons, List.map_nil, List.sum_cons, List.sum_nil] at hfit
  obtain ⟨q, e, r⟩ := C03_nothing_dropped_while_room N 1 hN (by omega) [b, a.drop (b.length + 1), b]
    (by
      intro m hm
      simp only [List.mem_cons, List.not_mem_nil, or_false] at hm
      rcases hm with rfl | rfl | rfl
      · exact ⟨hb, h0b⟩
      · exact ⟨hdn, fun x hx => h0a x (List.mem_of_mem_drop hx)⟩
      · exact ⟨hb, h0b⟩)
    (by simp only [footprint, List.map_cons, List.map_nil, List.sum_cons, List.sum_nil, hdl]; omega)
  have hlen : (b ++ [0] ++ a.drop (b.length + 1)).length = a.length := by
    simp only [List.length_append, List.length_cons, List.length_nil, hdl]; omega
  have hsame : pushAll N 1 init [b ++ [0] ++ a.drop (b.length + 1), b] = .ok q := by
    rw [← e]
    simp only [pushAll]
    rw [push_room (fuel := 0) hN init (b ++ [0] ++ a.drop (b.length + 1)) (by simp) (by rw [hlen]; simp [init]; omega)
      (by simp [init]) (by rw [hlen]; simp [init]; omega)]
    rw [push_room (fuel := 0) hN init b hb (by simp [init]; omega) (by simp [init]) (by simp [init]; omega)]
    simp only
    rw [push_room (fuel := 0) hN _ (a.drop (b.length + 1)) hdn (by simp only [hdl, init]; omega)
      (by simp only [init]; omega) (by simp only [hdl, init]; omega)]
    simp only [hlen, hdl, init]
    have hbl := blit_blit (fun _ => 0) 0 (b ++ [0]) (a.drop (b.length + 1) ++ [0])
    simp only [List.length_append, List.length_cons, List.length_nil] at hbl
    have e1 : 0 + (b.length + 1) + (a.length - (b.length + 1) + 1) = 0 + (a.length + 1) := by omega
    have e2 : (0 : Int) + ((b.length + 1 : Nat) : Int) + ((a.length - (b.length + 1) + 1 : Nat) : Int) =
      0 + ((a.length + 1 : Nat) : Int) := by omega
    rw [e1, e2, show 0 + (b.length + 1) = 0 + (b.length + (0 + 1)) by omega, hbl, List.append_assoc (b ++ [0])]
  obtain ⟨s, s1, s2, s3⟩ := two_say (c := b ++ [0] ++ a.drop (b.length + 1)) pa pb h0a h0b hlen
    (by
      intro x xs e
      cases b with
      | nil => exact absurd rfl hb
      | cons y ys =>
        simp only [List.cons_append, List.cons.injEq] at e
        exact e.1 ▸ h0b y (by simp)) (by omega)
    (by
      intro h j hj
      rw [hlen] at hj
      by_cases h1 : j < b.length + 1
      · rw [format_eq b _ (by omega) j h1, List.append_assoc (b ++ [0]),
          List.getD_append (b ++ [0]) _ _ _ (by simpa using h1)]
      · have : format N b (format N a fun _ => 0) j = format N a (fun _ => 0) j := by
          rw [format]
          have : min b.length (N - 1) = b.length := by omega
          rw [this, if_neg (by omega), if_neg (by omega)]
        rw [this, format_eq a _ h j (by omega), List.append_assoc (b ++ [0]),
          List.getD_append_right (b ++ [0]) _ _ _ (by simp; omega)]
        by_cases h2 : j < a.length
        · rw [List.getD_append _ _ _ _ h2, List.getD_append _ _ _ _ (by simp; omega)]
          simp only [List.getD, List.getElem?_drop, List.length_append, List.length_cons, List.length_nil]
          rw [show b.length + 1 + (j - (b.length + (0 + 1))) = j by omega]
        · have : j = a.length := by omega
          subst this
          rw [List.getD_append_right _ _ _ _ (by omega), List.getD_append_right _ _ _ _ (by simp)]
          simp) hsame
  exact ⟨s, s1, s2, by rw [s3]; exact r⟩

/-! ### C181 without the condition -/

theorem clear_zero (p n : Nat) : clear (fun _ => 0) p n = fun _ => 0 := by
  funext j; simp [clear]

/-- A thread that goes on skipping NUL bytes. -/
theorem skip_forever {N : Nat} (P : List UInt8 → Prop) {i : Nat} {s : Sys} (hbuf : ∀ j, s.sh.buf j = 0)
    (hpc : (s.th i).1 = .skip) (hb : (s.th i).2.bottom < N) (k : Nat) :
    ∃ t, During N P i s k t ∧ t.sh = s.sh ∧ (t.th i).1 = .skip ∧ (t.th i).2.bottom < N := by
  induction k with
  | zero => exact ⟨s, During.refl, rfl, hpc, hb⟩
  | succ k ih =>
    obtain ⟨t, d, e1, e2, e3⟩ := ih
    refine ⟨_, During.own d (sh := t.sh) (pc := .skip)
      (l := { (t.th i).2 with bottom := ((t.th i).2.bottom + 1) % N, travel := (t.th i).2.travel + 1 })
      (by simp [e2]) ?_, e1, by simp, ?_⟩
    · rw [e2]
      simp only [act]
      rw [if_neg (by omega), if_pos (by rw [e1]; exact hbuf _)]
    · simp only [Function.update_self]
      exact Nat.mod_lt _ (by omega)

/-- **C181 is false.**  If empty messages can be logged as well, a thread may never return, although nobody disturbs it:
here after a message of one byte and an empty one that were logged at the same time. -/
theorem C181_empty_hangs (N : Nat) (hN : N ≤ 2 ^ 30) (c : UInt8) (hc : c ≠ 0) (m : List UInt8) (h0 : ∀ x ∈ m, x ≠ 0)
    (h1 : N ≤ m.length + 3) (h2 : m.length + 1 < N) (h3 : 2 ≤ m.length) (P : List UInt8 → Prop) (p1 : P [c]) (p2 : P [])
    (p3 : P m) :
    ∃ s, Steps N P Sys.start s ∧ (s.th 0).1 = .idle ∧ (s.th 1).1 = .idle ∧ (s.th 2).1 ≠ .idle ∧
      ∀ k, ∃ t, During N P 2 s k t := by
  have a0 : Steps N P Sys.start (said N Sys.start 0 [c]) := Steps.tail Steps.refl (Step.say rfl p1 (by simpa using hc))
  simp only [said] at a0
  have a1 := go_on a0 (by simp) rfl
  have a2 := go_on a1 (by simp) rfl
  have a3 := go_on a2 (by simp) rfl
  have a4 := go_on a3 (pc' := .pad) (by simp) (by
    simp only [act]
    rw [if_neg]
    rintro (h | h)
    · simp only [byte, enter, format] at h
      rw [if_pos (by simp; omega)] at h
      exact hc (by simpa using h)
    · simp [enter] at h; omega)
  have b0 := Steps.tail a4 (Step.say (i := 1) (m := []) (by simp [Sys.start]) p2 (by simp))
  have hm0 : format N [] (format N [c] Sys.start.sh.msg) = fun _ => 0 := by
    funext j
    simp only [format, Sys.start, Shared.start]
    by_cases hj : j = 0
    · simp [hj]
    · have : ¬ j < min [c].length (N - 1) := by simp; omega
      simp [hj, this]
  simp only [said, hm0] at b0
  have b1 := go_on b0 (by simp) rfl
  have b2 := go_on b1 (by simp) rfl
  have b3 := go_on b2 (by simp) rfl
  have b4 := go_on b3 (pc' := .idle) (by simp) (by simp only [act]; rw [if_pos (by simp [byte, enter])])
  rw [Function.update_comm (by simp)] at b4
  generalize hg : Function.update Sys.start.th 1 _ = g at b4
  have hg1 : (g 1).1 = .idle ∧ (g 2).1 = .idle := by rw [← hg]; simp [Sys.start]
  have c4 : Steps N P Sys.start ⟨⟨fun _ => 0, 0, 0, 0, fun _ => 0⟩, Function.update g 0 (.pad, ⟨none, 2, 0, 0, 0, 0⟩)⟩ := b4
  have hf2 : ¬ tooFull N 0 2 = true := by
    simp only [tooFull, decide_eq_true_eq]; omega
  have c5 := go_on c4 (pc' := .evict) (sh' := ⟨fun _ => 0, 0, 0, 0, fun _ => 0⟩) (l' := ⟨none, 2, 0, 0, 0, 0⟩) (by simp)
    (by simp only [act]; rw [if_neg (show ¬ N ≤ 0 + 2 by omega)])
  have c6 := go_on c5 (pc' := .copy) (sh' := ⟨fun _ => 0, 0, 0, 0, fun _ => 0⟩) (l' := ⟨none, 2, 0, 0, 0, 0⟩) (by simp)
    (by simp only [act]; rw [if_neg hf2])
  have c7 := go_on c6 (pc' := .storeTop) (sh' := ⟨fun _ => 0, 0, 0, 0, fun _ => 0⟩) (l' := ⟨none, 2, 2, 0, 2, 0⟩) (by simp)
    (by
      simp only [act]
      rw [if_neg (show ¬ N < 0 + 2 by omega), Nat.mod_eq_of_lt (show 0 + 2 < N by omega)]
      have : write ⟨fun _ => 0, 0, 0, 0, fun _ => 0⟩ ⟨none, 2, 0, 0, 0, 0⟩ = fun _ => 0 := by
        funext j; simp [write, byte]
      rw [this]; rfl)
  have c8 := go_on c7 (by simp) rfl
  have c9 := go_on c8 (by simp) rfl
  have c10 := go_on c9 (by simp) rfl
  have d0 := Steps.tail c10 (Step.say (i := 2) (m := m) (by simp [hg1.2]) p3 h0)
  simp only [said] at d0
  have d1 := go_on d0 (by simp) rfl
  have d2 := go_on d1 (by simp) rfl
  have d3 := go_on d2 (by simp) rfl
  generalize hx : Function.update g 0 _ = x at d3
  have hx1 : (x 0).1 = .idle ∧ (x 1).1 = .idle := by rw [← hx]; simp [hg1.1]
  have e3 : Steps N P Sys.start ⟨⟨fun _ => 0, 2, 0, 2, format N m fun _ => 0⟩,
    Function.update x 2 (.check, ⟨none, m.length + 1, 2, 0, 2, 0⟩)⟩ := d3
  have e4 := go_on e3 (pc' := .pad) (sh' := ⟨fun _ => 0, 2, 0, 2, format N m fun _ => 0⟩)
    (l' := ⟨none, m.length + 1, 2, 0, 2, 0⟩) (by simp) (by
      simp only [act]
      rw [if_neg]
      rintro (h | h)
      · exact format_first (by omega) (fun e => by simp [e] at h3) h0 (fun _ => 0) h
      · omega)
  have e5 := go_on e4 (pc' := .evict) (sh' := ⟨fun _ => 0, 2, 0, 2, format N m fun _ => 0⟩)
    (l' := ⟨none, m.length + 1, 0, 0, N, 0⟩) (by simp) (by
      simp only [act]
      rw [if_pos (show N ≤ 2 + (m.length + 1) by omega), if_neg (show ¬ N < 2 by omega), clear_zero]
      rw [show (2 : Int) + (N - 2 : Nat) = N by omega])
  have e6 := go_on e5 (pc' := .strlen) (sh' := ⟨fun _ => 0, 2, 0, 2, format N m fun _ => 0⟩)
    (l' := ⟨none, m.length + 1, 0, 0, N, 0⟩) (by simp) (by
      simp only [act]
      rw [if_pos ((tooFull_iff hN (by omega) (by omega)).2 (by omega))])
  have e7 := go_on e6 (pc' := .skip) (sh' := ⟨fun _ => 0, 2, 0, 2, format N m fun _ => 0⟩)
    (l' := ⟨none, m.length + 1, 0, 1, N, 1⟩) (by simp) (by
      simp only [act]
      rw [if_neg (show ¬ N ≤ 0 by omega)]
      obtain ⟨n, rfl⟩ : ∃ n, N = n + 1 := ⟨N - 1, by omega⟩
      simp only [Nat.sub_zero, strlen, ↓reduceIte]
      rw [Nat.mod_eq_of_lt (show 0 + (0 + 1) < n + 1 by omega)])
  refine ⟨_, e7, by simp [hx1.1], by simp [hx1.2], by simp, fun k => ?_⟩
  obtain ⟨t, d, _⟩ := skip_forever (N := N) P (i := 2) (s := ⟨⟨fun _ => 0, 2, 0, 2, format N m fun _ => 0⟩,
    Function.update x 2 (.skip, ⟨none, m.length + 1, 0, 1, N, 1⟩)⟩) (fun _ => rfl) (by simp) (by simp; omega) k
  exact ⟨t, d⟩

/-! ### Cases -/

/-- "hello", "world" and "hi" -/
def hello : List UInt8 := [104, 101, 108, 108, 111]
def world : List UInt8 := [119, 111, 114, 108, 100]
def hi : List UInt8 := [104, 105]

/-- C180: whatever state two threads that log at the same time leave behind, a third finds its numbers in order. -/
example : ∃ s, Steps ringSize (fun _ => True) Sys.start s ∧ s.sh.top < ringSize ∧
    records (printed ringSize s.sh.queue) = [world, world] := by
  obtain ⟨s, h, _, r⟩ := C182_mixed ringSize (by decide) hello world rfl (by decide) (by decide) (by decide)
    (by decide) (fun _ => True) trivial trivial
  exact ⟨s, h, (C180_in_bounds ringSize (by decide) _ s h 0).2.1, r⟩

/-- C181: a thread has said "hello" and another says "hi"; the first is through after a bounded number of steps, of which
here is one. -/
example : ∃ t, During ringSize (Ordinary ringSize) 0 (said ringSize (said ringSize Sys.start 0 hello) 1 hi) 1 t ∧
    1 ≤ 11 + ringSize + 3 * ringSize * (ringSize + 3) := by
  have st : Steps ringSize (Ordinary ringSize) Sys.start (said ringSize (said ringSize Sys.start 0 hello) 1 hi) :=
    Steps.tail (Steps.tail Steps.refl (Step.say rfl (by unfold Ordinary; decide) (by decide)))
      (Step.say (by simp [said, Sys.start]) (by unfold Ordinary; decide) (by decide))
  have key : (said ringSize (said ringSize Sys.start 0 hello) 1 hi).th 0 = (.loadTop, enter none 6) := by
    simp [said, hello]
  have d : During ringSize (Ordinary ringSize) 0 (said ringSize (said ringSize Sys.start 0 hello) 1 hi) 1 _ :=
    During.own During.refl (by simp [key]) (by rw [key]; rfl)
  exact ⟨_, d, C181_returns_partial ringSize (by decide) (by decide) _ _ st 0 1 d⟩

/-- C181: the log of two messages said at the same time has a length that the ring has. -/
example : ∃ s, Steps ringSize (Ordinary ringSize) Sys.start s ∧ records (printed ringSize s.sh.queue) = [world, world] ∧
    s.sh.distance < ringSize := by
  obtain ⟨s, h, _, r⟩ := C182_mixed ringSize (by decide) hello world rfl (by decide) (by decide) (by decide)
    (by decide) (Ordinary ringSize) (by unfold Ordinary; decide) (by unfold Ordinary; decide)
  exact ⟨s, h, r, (C181_distance_partial ringSize (by decide) (by decide) s h).2⟩

/-- C181: a ring of eight bytes, "h" and nothing at the same time, then "hello!". -/
example : ∃ s, Steps 8 (fun _ => True) Sys.start s ∧ (s.th 2).1 ≠ .idle ∧ ∀ k, ∃ t, During 8 (fun _ => True) 2 s k t := by
  obtain ⟨s, a, _, _, b, c⟩ := C181_empty_hangs 8 (by decide) 104 (by decide) [104, 101, 108, 108, 111, 33] (by decide)
    (by decide) (by decide) (by decide) (fun _ => True) trivial trivial trivial
  exact ⟨s, a, b, c⟩

/-- C182: one after the other, "hello" and "world" are both shown. -/
example : ∃ t, Turns ringSize Sys.start [(0, hello), (1, world)] t ∧
    ∃ k, records (printed ringSize t.sh.queue) = newest k [hello, world] ∧ 1 ≤ k := by
  have ha : ∀ c ∈ hello, c ≠ 0 := by decide
  have hb : ∀ c ∈ world, c ≠ 0 := by decide
  obtain ⟨s, s1, s2, s3, s4⟩ := C182_alone_partial ringSize 1 Sys.start 0 hello ha _
    (push_room (fuel := 0) (by decide) init hello (by decide) (by decide) (by decide) (by decide))
  obtain ⟨t, t1, t2, t3, t4⟩ := C182_alone_partial ringSize 1 s 1 world hb _
    (by rw [s3]; exact push_room (fuel := 0) (by decide) _ world (by decide) (by decide) (by decide) (by decide))
  have hT : Turns ringSize Sys.start [(0, hello), (1, world)] t :=
    Turns.cons rfl s1 s2 (Turns.cons (by rw [s4 1 (by decide)]; rfl) t1 t2 Turns.nil)
  obtain ⟨k, r, _, h1⟩ := C182_turns_partial ringSize (by decide) _ (by decide) (by decide) t hT
  exact ⟨t, hT, k, r, h1 (by decide)⟩

/-- C182: "hello" and "hi" at the same time: shown are "hi", "lo" and "hi". -/
example : ∃ s, Steps ringSize (fun _ => True) Sys.start s ∧ (∀ i, (s.th i).1 = .idle) ∧
    records (printed ringSize s.sh.queue) = [hi, [108, 111], hi] :=
  C182_torn ringSize (by decide) hello hi (by decide) (by decide) (by decide) (by decide) (by decide) (fun _ => True)
    trivial trivial

end Verif.LogRace
