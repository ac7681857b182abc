import Verif.MsgQueue.Model
import Verif.MsgQueue.Spec

/-! Invariant of the message ring and supporting lemmas. -/

namespace Verif.MsgQueue
open Spec

/-- A message as stored: bytes and terminator. -/
def enc (ms : List (List UInt8)) : List UInt8 := (ms.map (· ++ [0])).flatten

@[simp] theorem enc_nil : enc [] = [] := rfl
@[simp] theorem enc_cons (m ms) : enc (m :: ms) = m ++ 0 :: enc ms := by simp [enc]
@[simp] theorem enc_append (a b) : enc (a ++ b) = enc a ++ enc b := by simp [enc]

theorem enc_length (ms) : (enc ms).length = footprint ms := by
  induction ms with
  | nil => rfl
  | cons m ms ih => simp [footprint] at *; omega

/-- Message: non-empty and free of NUL bytes. -/
def Good (m : List UInt8) : Prop := m ≠ [] ∧ ∀ b ∈ m, b ≠ 0

/-- The buffer holds the list `l` at position `a`. -/
def At (buf : Nat → UInt8) : Nat → List UInt8 → Prop
  | _, [] => True
  | a, x :: l => buf a = x ∧ At buf (a + 1) l

theorem at_append {buf a l1 l2} : At buf a (l1 ++ l2) ↔ At buf a l1 ∧ At buf (a + l1.length) l2 := by
  induction l1 generalizing a with
  | nil => simp [At]
  | cons x l1 ih => simp [At, ih, and_assoc, Nat.add_assoc, Nat.add_comm 1]

theorem at_congr {buf buf' a l} (h : ∀ i, a ≤ i → i < a + l.length → buf i = buf' i) :
    At buf a l ↔ At buf' a l := by
  induction l generalizing a with
  | nil => simp [At]
  | cons x l ih =>
    simp only [At]
    rw [h a (by omega) (by simp), ih]
    intro i h1 h2
    exact h i (by omega) (by simp at *; omega)

theorem at_get {buf a l} (h : At buf a l) {i} (hi : i < l.length) : buf (a + i) = l[i] := by
  induction l generalizing a i with
  | nil => simp at hi
  | cons x l ih =>
    cases i with
    | zero => simpa [At] using h.1
    | succ i =>
      have := ih h.2 (i := i) (by simpa using hi)
      simp only [List.getElem_cons_succ]
      rw [← this]; congr 1; omega

theorem at_of_get {buf a l} (h : ∀ i (hi : i < l.length), buf (a + i) = l[i]) : At buf a l := by
  induction l generalizing a with
  | nil => trivial
  | cons x l ih =>
    refine ⟨h 0 (by simp), ih ?_⟩
    intro i hi
    have := h (i + 1) (by simpa using hi)
    simp only [List.getElem_cons_succ] at this
    rw [← this]; congr 1; omega

theorem at_clear (buf pos n) : At (clear buf pos n) pos (List.replicate n 0) := by
  apply at_of_get
  intro i hi
  simp at hi
  simp [clear, hi]

theorem at_blit (buf pos bytes) : At (blit buf pos bytes) pos bytes := by
  apply at_of_get
  intro i hi
  simp [blit, hi]

theorem blit_other {buf pos bytes i} (h : i < pos ∨ pos + bytes.length ≤ i) :
    blit buf pos bytes i = buf i := by
  unfold blit; rw [if_neg]; omega

theorem clear_other {buf pos n i} (h : i < pos ∨ pos + n ≤ i) : clear buf pos n i = buf i := by
  unfold clear; rw [if_neg]; omega

/-! ### printing -/

theorem printFrom_at {N buf b l} (h : At buf b l) (hb : b + l.length < N) (d : Nat) :
    printFrom N buf b (l.length + d) = l ++ printFrom N buf (b + l.length) d := by
  induction l generalizing b with
  | nil => simp
  | cons x l ih =>
    simp only [List.length_cons] at *
    have e : l.length + 1 + d = (l.length + d) + 1 := by omega
    rw [e, printFrom, Nat.mod_eq_of_lt (by omega), ih h.2 (by omega), h.1]
    simp [Nat.add_assoc, Nat.add_comm 1]

theorem printFrom_at_end {N buf b l} (h : At buf b l) (hb : b + l.length = N) (hl : l ≠ []) (d : Nat) :
    printFrom N buf b (l.length + d) = l ++ printFrom N buf 0 d := by
  induction l generalizing b with
  | nil => exact absurd rfl hl
  | cons x l ih =>
    simp only [List.length_cons] at *
    have e : l.length + 1 + d = (l.length + d) + 1 := by omega
    rw [e, printFrom, h.1]
    by_cases hl' : l = []
    · subst hl'; simp at hb ⊢; rw [hb, Nat.mod_self]
    · have : 0 < l.length := by cases l <;> simp_all
      rw [Nat.mod_eq_of_lt (by omega), ih h.2 (by omega) hl']
      simp

/-! ### records -/

theorem splitNul_ne_nil (l) : splitNul l ≠ [] := by
  induction l with
  | nil => simp [splitNul]
  | cons b bs ih =>
    simp only [splitNul]
    cases h : splitNul bs with
    | nil => exact absurd h ih
    | cons r rs => simp only; split <;> simp

theorem splitNul_zero (l) : splitNul (0 :: l) = [] :: splitNul l := by
  simp only [splitNul]
  cases h : splitNul l with
  | nil => exact absurd h (splitNul_ne_nil l)
  | cons r rs => simp

theorem splitNul_msg {m : List UInt8} (h : ∀ b ∈ m, b ≠ 0) (l) :
    splitNul (m ++ 0 :: l) = m :: splitNul l := by
  induction m with
  | nil => simp [splitNul_zero]
  | cons b m ih =>
    have := ih (fun x hx => h x (by simp [hx]))
    simp only [List.cons_append, splitNul, this]
    rw [if_neg (h b (by simp))]

@[simp] theorem records_nil : records [] = [] := by simp [records, splitNul]
@[simp] theorem records_zero (l) : records (0 :: l) = records l := by
  simp [records, splitNul_zero]
theorem records_msg {m : List UInt8} (h : Good m) (l) : records (m ++ 0 :: l) = m :: records l := by
  simp [records, splitNul_msg h.2, h.1]
theorem records_zeros (n l) : records (List.replicate n 0 ++ l) = records l := by
  induction n with
  | zero => simp
  | succ n ih => simp [List.replicate_succ, ih]
theorem records_enc {ms : List (List UInt8)} (h : ∀ m ∈ ms, Good m) (l) :
    records (enc ms ++ l) = ms ++ records l := by
  induction ms with
  | nil => simp
  | cons m ms ih =>
    simp only [enc_cons, List.append_assoc, List.cons_append]
    rw [records_msg (h m (by simp)), ih (fun x hx => h x (by simp [hx]))]

/-! ### scanning -/

theorem strlen_at {buf b m l room} (h : At buf b (m ++ 0 :: l)) (hm : ∀ x ∈ m, x ≠ 0)
    (hr : m.length < room) : strlen buf b room = some m.length := by
  induction m generalizing b room with
  | nil =>
    cases room with
    | zero => simp at hr
    | succ r => simp [strlen]; simpa [At] using h.1
  | cons x m ih =>
    cases room with
    | zero => simp at hr
    | succ r =>
      have hx : buf b ≠ 0 := by rw [show buf b = x from h.1]; exact hm x (by simp)
      simp only [strlen, if_neg hx]
      rw [ih h.2 (fun y hy => hm y (by simp [hy])) (by simpa using hr)]
      simp

theorem skipNuls_stop {N buf fuel b t} (hb : b < N) (h : buf b ≠ 0) (hf : 0 < fuel) :
    skipNuls N buf fuel b t = .ok (b, t) := by
  cases fuel with
  | zero => omega
  | succ f => simp [skipNuls, h, Nat.not_le.mpr hb]

theorem skipNuls_zeros {N buf fuel b t n} (h : At buf b (List.replicate n 0)) (hb : b + n = N)
    (hn : 0 < n) (h0 : buf 0 ≠ 0) (hf : n < fuel) :
    skipNuls N buf fuel b t = .ok (0, t + n) := by
  induction n generalizing b t fuel with
  | zero => omega
  | succ n ih =>
    cases fuel with
    | zero => omega
    | succ f =>
      have hb' : buf b = 0 := by simpa [List.replicate_succ, At] using h.1
      simp only [skipNuls, Nat.not_le.mpr (show b < N by omega), if_false, hb', if_true]
      by_cases hn' : n = 0
      · subst hn'
        rw [show b + 1 = N by omega, Nat.mod_self,
          skipNuls_stop (by omega) h0 (by omega)]
      · rw [Nat.mod_eq_of_lt (by omega), ih (by simpa [List.replicate_succ, At] using h.2)
          (by omega) (by omega) (by omega)]
        congr 2; omega

theorem tooFull_iff {N : Nat} {d : Nat} {s : Nat} (h : d + s < 2 ^ 64) :
    tooFull N (d : Int) s = decide (N ≤ d + s) := by
  unfold tooFull
  rw [Int.emod_eq_of_lt (by omega) (by omega)]
  simp only [decide_eq_decide]
  omega

/-! ### the eviction loop -/

/-- Live data, oldest first, is `m1` at the end of the ring (followed by padding up to the end) and
`m2` from the start of the ring. -/
structure Split (N : Nat) (buf : Nat → UInt8) (b : Nat) (m1 : List (List UInt8)) (p : Nat)
    (m2 : List (List UInt8)) : Prop where
  hi : At buf b (enc m1 ++ List.replicate p 0)
  fit : b + footprint m1 + p = N
  pad : 0 < p
  lo : At buf 0 (enc m2)
  start : buf 0 ≠ 0
  good1 : ∀ m ∈ m1, Good m
  good2 : ∀ m ∈ m2, Good m

theorem good_head {buf b m l} (h : At buf b (m ++ l)) (hg : Good m) : buf b ≠ 0 := by
  obtain ⟨h1, h2⟩ := hg
  cases m with
  | nil => exact absurd rfl h1
  | cons x m => rw [show buf b = x from h.1]; exact h2 x (by simp)

/-- One iteration of the eviction loop removes the oldest message (and the padding behind it). -/
theorem evict_step {N buf s f b m rest p m2} (h : Split N buf b (m :: rest) p m2)
    (hf : N < f) (d : Nat) (hfull : tooFull N d s = true) :
    evict N buf s (f + 1) b d =
      if rest = [] then evict N buf s f 0 (d - (N - b : Nat) : Int)
      else evict N buf s f (b + m.length + 1) (d - (m.length + 1 : Nat) : Int) := by
  have hfit := h.fit
  have hpad := h.pad
  simp only [footprint, List.map_cons, List.sum_cons] at hfit
  have hi := h.hi
  simp only [enc_cons, List.append_assoc, List.cons_append] at hi
  have hg := h.good1 m (by simp)
  have hs := strlen_at (room := N - b) hi hg.2 (by omega)
  have hbN : ¬ N ≤ b := by omega
  rw [evict, if_pos hfull, if_neg hbN, hs]
  simp only
  rw [at_append] at hi
  have hi2 : At buf (b + m.length + 1) (enc rest ++ List.replicate p 0) := hi.2.2
  rw [show b + (m.length + 1) = b + m.length + 1 by omega,
    Nat.mod_eq_of_lt (show b + m.length + 1 < N by omega)]
  by_cases hr : rest = []
  · subst hr
    simp only [enc_nil, List.nil_append] at hi2
    simp at hfit
    rw [skipNuls_zeros hi2 (by omega) h.pad h.start (by omega)]
    simp only [if_true]
    congr 2
    omega
  · rw [if_neg hr]
    obtain ⟨r, rs, rfl⟩ := List.exists_cons_of_ne_nil hr
    have : buf (b + m.length + 1) ≠ 0 := by
      simp only [enc_cons, List.append_assoc] at hi2
      exact good_head hi2 (h.good1 r (by simp))
    rw [skipNuls_stop (by omega) this (by omega)]

theorem split_tail {N buf b m rest p m2} (h : Split N buf b (m :: rest) p m2) :
    Split N buf (b + m.length + 1) rest p m2 := by
  have hi := h.hi
  simp only [enc_cons, List.append_assoc, List.cons_append] at hi
  rw [at_append] at hi
  have hfit := h.fit
  simp only [footprint, List.map_cons, List.sum_cons] at hfit
  exact ⟨hi.2.2, by simp only [footprint]; omega, h.pad, h.lo, h.start,
    fun x hx => h.good1 x (by simp [hx]), h.good2⟩

/-- Running the eviction loop from a split layout: it stops, with some of the oldest messages
gone, and room for the new message. -/
theorem evict_split {N buf s f b m1 p m2} (h : Split N buf b m1 p m2) (hne : m1 ≠ [])
    (hN : N ≤ 2 ^ 30) (hs : footprint m2 + s < N) (hf : N + m1.length < f) :
    ∃ dropped kept b', m1 = dropped ++ kept ∧
      evict N buf s f b ((N - b + footprint m2 : Nat) : Int) =
        .ok (b', ((if kept = [] then footprint m2 else N - b' + footprint m2 : Nat) : Int)) ∧
      (kept = [] → b' = 0) ∧
      (kept ≠ [] → Split N buf b' kept p m2 ∧ N - b' + footprint m2 + s < N) := by
  induction m1 generalizing b f with
  | nil => exact absurd rfl hne
  | cons m rest ih =>
    have hfit := h.fit
    have hpad := h.pad
    simp only [footprint, List.map_cons, List.sum_cons] at hfit
    cases f with
    | zero => omega
    | succ f =>
      have htf := tooFull_iff (N := N) (d := N - b + footprint m2) (s := s) (by omega)
      by_cases hfull : N ≤ N - b + footprint m2 + s
      · rw [evict_step h (by simp at hf; omega) _ (by rw [htf]; simpa using hfull)]
        by_cases hr : rest = []
        · subst hr
          refine ⟨[m], [], 0, rfl, ?_, fun _ => rfl, fun hh => absurd rfl hh⟩
          rw [if_pos rfl]
          have e : (((N - b + footprint m2 : Nat) : Int) - ((N - b : Nat) : Int))
            = (footprint m2 : Nat) := by omega
          rw [e]
          cases f with
          | zero => omega
          | succ f =>
            have htf2 := tooFull_iff (N := N) (d := footprint m2) (s := s) (by omega)
            rw [evict, htf2, if_neg (by simp; omega)]
            simp
        · rw [if_neg hr]
          have h' := split_tail h
          have hd : (((N - b + footprint m2 : Nat) : Int) - ((m.length + 1 : Nat) : Int))
            = ((N - (b + m.length + 1) + footprint m2 : Nat) : Int) := by omega
          rw [hd]
          obtain ⟨dr, kp, b', e, hev, h1, h2⟩ := ih h' hr (f := f) (by simp at hf; omega)
          exact ⟨m :: dr, kp, b', by simp [e], hev, h1, h2⟩
      · refine ⟨[], m :: rest, b, rfl, ?_, by simp, fun _ => ⟨h, by omega⟩⟩
        rw [evict, htf, if_neg (by simp; omega)]
        simp

/-! ### the invariant -/

/-- State invariant relative to the list `kept` of messages currently held (oldest first). -/
inductive Inv (N : Nat) (q : MsgQ) (kept : List (List UInt8)) : Prop where
  | empty (hb : q.bottom = 0) (ht : q.top = 0) (hd : q.distance = 0) (hk : kept = [])
  | linear (hk : kept ≠ []) (ha : At q.buf q.bottom (enc kept))
      (ht : q.bottom + footprint kept = q.top) (hN : q.top < N)
      (hd : q.distance = footprint kept) (h0 : q.buf 0 ≠ 0) (hg : ∀ m ∈ kept, Good m)
  | wrapped (m1 m2 : List (List UInt8)) (p : Nat) (hk : kept = m1 ++ m2) (h1 : m1 ≠ [])
      (h2 : m2 ≠ []) (hs : Split N q.buf q.bottom m1 p m2) (ht : q.top = footprint m2)
      (hd : q.distance = ((N - q.bottom + footprint m2 : Nat) : Int))
      (hlt : N - q.bottom + footprint m2 < N)

theorem footprint_append (a b) : footprint (a ++ b) = footprint a + footprint b := by
  simp [footprint]
@[simp] theorem footprint_nil : footprint [] = 0 := rfl
@[simp] theorem footprint_cons (m ms) : footprint (m :: ms) = m.length + 1 + footprint ms := by
  simp [footprint]

theorem footprint_length (ms) : ms.length ≤ footprint ms := by
  induction ms with
  | nil => simp
  | cons m ms ih => simp; omega

theorem blit_start {buf : Nat → UInt8} {pos} {m : List UInt8} (hg : Good m) (h0 : pos ≠ 0 → buf 0 ≠ 0) :
    blit buf pos (m ++ [0]) 0 ≠ 0 := by
  by_cases hp : pos = 0
  · subst hp
    have := at_blit buf 0 (m ++ [0])
    exact good_head this hg
  · rw [blit_other (by omega)]; exact h0 hp

/-- After the eviction loop has made room, committing the message re-establishes the invariant.
`kept` are the surviving messages. -/
theorem commit_linear {N : Nat} {buf : Nat → UInt8} {b m kept} (hg : Good m)
    (hgk : ∀ x ∈ kept, Good x) (ha : At buf b (enc kept))
    (hfit : b + footprint kept + m.length + 1 < N)
    (h0 : b + footprint kept ≠ 0 → buf 0 ≠ 0) :
    Inv N { buf := blit buf (b + footprint kept) (m ++ [0])
            top := b + footprint kept + (m.length + 1)
            bottom := b
            distance := (footprint kept : Int) + ((m.length + 1 : Nat) : Int) } (kept ++ [m]) := by
  refine .linear (by simp) ?_ ?_ ?_ ?_ ?_ ?_
  · simp only [enc_append, at_append, enc_length]
    refine ⟨(at_congr ?_).mp ha, ?_⟩
    · intro i _ hi
      rw [blit_other]; left; rw [enc_length] at hi; omega
    · simpa using at_blit buf (b + footprint kept) (m ++ [0])
  · simp [footprint_append]; omega
  · simp; omega
  · simp [footprint_append]
  · exact blit_start hg h0
  · intro x hx
    simp at hx
    rcases hx with hx | hx
    · exact hgk x hx
    · exact hx ▸ hg

theorem commit_wrapped {N : Nat} {buf : Nat → UInt8} {b m m1 p m2} (hg : Good m)
    (h1 : m1 ≠ []) (hs : Split N buf b m1 p m2)
    (hfit : N - b + footprint m2 + (m.length + 1) < N) :
    Inv N { buf := blit buf (footprint m2) (m ++ [0])
            top := footprint m2 + (m.length + 1)
            bottom := b
            distance := ((N - b + footprint m2 : Nat) : Int) + ((m.length + 1 : Nat) : Int) }
      (m1 ++ (m2 ++ [m])) := by
  have hf := hs.fit
  refine .wrapped m1 (m2 ++ [m]) p rfl h1 (by simp) ⟨?_, hf, hs.pad, ?_, ?_, hs.good1, ?_⟩ ?_ ?_ ?_
  · refine (at_congr ?_).mp hs.hi
    intro i hi1 hi2
    dsimp only at *
    rw [blit_other]; right; simp; omega
  · simp only [enc_append, at_append, enc_length]
    refine ⟨(at_congr ?_).mp hs.lo, ?_⟩
    · intro i _ hi
      rw [blit_other]; left; rw [enc_length] at hi; omega
    · simpa using at_blit buf (footprint m2) (m ++ [0])
  · exact blit_start hg (fun _ => hs.start)
  · intro x hx
    simp at hx
    rcases hx with hx | hx
    · exact hs.good2 x hx
    · exact hx ▸ hg
  · simp [footprint_append]
  · simp [footprint_append]; omega
  · simp [footprint_append]; omega

/-- The wrap-around case of `push` on a ring that ends (before the memset) with the messages `m1` at
`b`, running up to the old top: the eviction loop started at `b` with the distance to the end of the
ring.  Used for a linear ring (first iteration) and for a wrapped one (after its first iteration). -/
theorem push_wrap {N f b m1 p m} {buf : Nat → UInt8} (hs : Split N buf b m1 p []) (h1 : m1 ≠ [])
    (hN : N ≤ 2 ^ 30) (hg : Good m) (hm : m.length + 1 < N) (hf : 2 * N < f) :
    ∃ b' d' dropped kept, m1 = dropped ++ kept ∧
      evict N buf (m.length + 1) f b ((N - b : Nat) : Int) = .ok (b', d') ∧
      Inv N { buf := blit buf 0 (m ++ [0]), top := 0 + (m.length + 1), bottom := b',
              distance := d' + ((m.length + 1 : Nat) : Int) } (kept ++ [m]) := by
  have hl := footprint_length m1
  have hfit := hs.fit
  obtain ⟨dr, kp, b', e, hev, hk1, hk2⟩ := evict_split (s := m.length + 1) (f := f) hs h1 hN
    (by simpa using hm) (by omega)
  simp only [footprint_nil, Nat.add_zero] at hev
  refine ⟨b', _, dr, kp, e, hev, ?_⟩
  by_cases hk : kp = []
  · have hb := hk1 hk
    subst hk hb
    have := commit_linear (N := N) (buf := buf) (b := 0) (m := m) (kept := []) hg (by simp)
      (by simp [At]) (by simp; omega) (by simp)
    simpa using this
  · obtain ⟨hs', hlt⟩ := hk2 hk
    have := commit_wrapped hg hk hs' (by omega)
    simpa [hk] using this

theorem push_inv {N f q kept m} (hN : N ≤ 2 ^ 30) (h : Inv N q kept) (hg : Good m)
    (hm : m.length + 1 < N) (hf : 2 * N + 1 < f) :
    ∃ q' dropped kept', kept = dropped ++ kept' ∧ push N f q m = .ok q' ∧
      Inv N q' (kept' ++ [m]) := by
  have hcond : ¬ (m = [] ∨ N < m.length + 1) := by
    intro hh
    rcases hh with hh | hh
    · exact hg.1 hh
    · omega
  obtain ⟨f, rfl⟩ : ∃ g, f = g + 1 := ⟨f - 1, by omega⟩
  cases h with
  | empty hb ht hd hk =>
    subst hk
    have ev : evict N q.buf (m.length + 1) (f + 1) q.bottom q.distance = .ok (0, 0) := by
      have := tooFull_iff (N := N) (d := 0) (s := m.length + 1) (by omega)
      rw [evict, hb, hd]
      have h0 : ((0 : Nat) : Int) = 0 := rfl
      rw [h0] at this
      rw [this, if_neg (by simp; omega)]
    refine ⟨_, [], [], rfl, ?_, commit_linear (N := N) (buf := q.buf) (b := 0) (m := m) (kept := [])
      hg (by simp) (by simp [At]) (by simp; omega) (by simp)⟩
    unfold push
    simp only [if_neg hcond, ht, Nat.zero_add]
    rw [if_neg (by simp)]
    simp only [Nat.not_le.mpr hm, decide_false, Bool.false_eq_true, if_false, ev]
    rw [if_neg (by omega), Nat.mod_eq_of_lt (by omega)]
    simp
  | linear hk ha ht htN hd h0 hgk =>
    by_cases hw : N ≤ q.top + (m.length + 1)
    · -- wrap
      have hs : Split N (clear q.buf q.top (N - q.top)) q.bottom kept (N - q.top) [] := by
        refine ⟨?_, by omega, by omega, by simp [At], ?_, hgk, by simp⟩
        · rw [at_append, enc_length, ht]
          refine ⟨(at_congr ?_).mp ha, at_clear _ _ _⟩
          intro i _ hi
          rw [enc_length] at hi
          rw [clear_other]; left; omega
        · rw [clear_other]
          · exact h0
          · left
            obtain ⟨x, xs, rfl⟩ := List.exists_cons_of_ne_nil hk
            simp at ht; omega
      obtain ⟨b', d', dr, kp, e, hev, hinv⟩ := push_wrap hs hk hN hg hm (f := f + 1) (by omega)
      refine ⟨_, dr, kp, e, ?_, hinv⟩
      unfold push
      simp only [if_neg hcond]
      rw [if_neg (by simp; omega)]
      simp only [hw, decide_true, if_true]
      have : q.distance + ((N - q.top : Nat) : Int) = ((N - q.bottom : Nat) : Int) := by omega
      rw [this, hev]
      simp only
      rw [if_neg (by omega), Nat.mod_eq_of_lt (by omega)]
    · -- no wrap: no eviction
      have ev : evict N q.buf (m.length + 1) (f + 1) q.bottom q.distance
          = .ok (q.bottom, (footprint kept : Int)) := by
        have := tooFull_iff (N := N) (d := footprint kept) (s := m.length + 1) (by omega)
        rw [evict, hd, this, if_neg (by simp; omega)]
      refine ⟨_, [], kept, rfl, ?_, commit_linear (N := N) hg hgk ha (by omega) (fun _ => h0)⟩
      unfold push
      simp only [if_neg hcond]
      rw [if_neg (by simp; omega)]
      simp only [hw, decide_false, Bool.false_eq_true, if_false, ev]
      rw [if_neg (by omega), Nat.mod_eq_of_lt (by omega), ht]
  | wrapped m1 m2 p hk h1 h2 hs ht hd hlt =>
    have hfit := hs.fit
    have hpad := hs.pad
    have hf2 : 0 < footprint m2 := by
      obtain ⟨x, xs, rfl⟩ := List.exists_cons_of_ne_nil h2
      simp; omega
    by_cases hw : N ≤ q.top + (m.length + 1)
    · -- wrap, overwriting the older part
      have hs' : Split N (clear q.buf q.top (N - q.top)) 0 m2 (N - q.top) [] := by
        refine ⟨?_, by omega, by omega, by simp [At], ?_, hs.good2, by simp⟩
        · rw [at_append, enc_length, Nat.zero_add, ← ht]
          refine ⟨(at_congr ?_).mp hs.lo, at_clear _ _ _⟩
          intro i _ hi
          rw [enc_length] at hi
          rw [clear_other]; left; omega
        · rw [clear_other]
          · exact hs.start
          · left; omega
      obtain ⟨b', d', dr, kp, e, hev, hinv⟩ := push_wrap hs' h2 hN hg hm (f := f) (by omega)
      refine ⟨_, m1 ++ dr, kp, by rw [hk, e]; simp, ?_, hinv⟩
      unfold push
      simp only [if_neg hcond]
      rw [if_neg (by simp; omega)]
      simp only [hw, decide_true, if_true]
      have e1 : q.distance + ((N - q.top : Nat) : Int) = ((N + (N - q.bottom) : Nat) : Int) := by
        omega
      have hb : q.bottom < N := by omega
      -- the first iteration walks over the erased part
      have hz : At (clear q.buf q.top (N - q.top)) q.bottom (List.replicate (N - q.bottom) 0) := by
        apply at_of_get
        intro i hi
        simp at hi
        simp only [List.getElem_replicate]
        unfold clear
        rw [if_pos (by omega)]
      have hstep : evict N (clear q.buf q.top (N - q.top)) (m.length + 1) (f + 1) q.bottom
          ((N + (N - q.bottom) : Nat) : Int) = .ok (b', d') := by
        have htf := tooFull_iff (N := N) (d := N + (N - q.bottom)) (s := m.length + 1) (by omega)
        rw [evict, htf, if_pos (by simp; omega), if_neg (by omega)]
        obtain ⟨n, hn⟩ : ∃ n, N - q.bottom = n + 1 := ⟨N - q.bottom - 1, by omega⟩
        rw [hn, List.replicate_succ] at hz
        have hsl : strlen (clear q.buf q.top (N - q.top)) q.bottom (N - q.bottom) = some 0 := by
          rw [hn, strlen, if_pos hz.1]
        rw [hsl]
        simp only [Nat.zero_add]
        by_cases hn0 : n = 0
        · rw [show q.bottom + 1 = N by omega, Nat.mod_self,
            skipNuls_stop (by omega) hs'.start (by omega)]
          simp only
          rw [← hev]; congr 1; omega
        · rw [Nat.mod_eq_of_lt (by omega), skipNuls_zeros hz.2 (by omega) (by omega) hs'.start
            (by omega)]
          simp only
          rw [← hev]; congr 1; omega
      rw [e1, hstep]
      simp only
      rw [if_neg (by omega), Nat.mod_eq_of_lt (by omega)]
    · have hl := footprint_length m1
      obtain ⟨dr, kp, b', e, hev, hk1, hk2⟩ := evict_split (s := m.length + 1) (f := f + 1) hs h1 hN
        (by omega) (by omega)
      by_cases hkp : kp = []
      · have hb := hk1 hkp
        subst hkp hb
        refine ⟨_, dr, m2, by rw [hk, e]; simp, ?_, commit_linear (N := N) (b := 0) hg hs.good2 hs.lo
          (by omega) (fun _ => hs.start)⟩
        unfold push
        simp only [if_neg hcond]
        rw [if_neg (by simp; omega)]
        simp only [hw, decide_false, Bool.false_eq_true, if_false, hd, hev, if_true]
        rw [if_neg (by omega), Nat.mod_eq_of_lt (by omega), ht]
        simp
      · obtain ⟨hs', hlt'⟩ := hk2 hkp
        have hc := commit_wrapped hg hkp hs' (by omega)
        rw [← List.append_assoc] at hc
        refine ⟨_, dr, kp ++ m2, by rw [hk, e]; simp, ?_, hc⟩
        unfold push
        simp only [if_neg hcond]
        rw [if_neg (by simp; omega)]
        simp only [hw, decide_false, Bool.false_eq_true, if_false, hd, hev, if_neg hkp]
        rw [if_neg (by omega), Nat.mod_eq_of_lt (by omega), ht]

theorem push_ignored {N f q m} (h : m = [] ∨ N < m.length + 1) : push N f q m = .ok q := by
  simp [push, h]

theorem printed_inv {N q kept} (h : Inv N q kept) : records (printed N q) = kept := by
  cases h with
  | empty hb ht hd hk => simp [printed, hd, printFrom, hk]
  | linear hk ha ht hN hd h0 hg =>
    have := printFrom_at (N := N) ha (by rw [enc_length]; omega) 0
    rw [enc_length] at this
    simp only [printed, hd, Int.toNat_natCast]
    rw [show footprint kept = footprint kept + 0 by rfl, this]
    simp only [printFrom]
    rw [records_enc hg]; simp
  | wrapped m1 m2 p hk h1 h2 hs ht hd hlt =>
    have hfit := hs.fit
    have hpad := hs.pad
    have a1 := printFrom_at_end (N := N) hs.hi (by simp [enc_length]; omega)
      (by intro hh; have := congrArg List.length hh; simp at this; omega) (footprint m2)
    have a2 := printFrom_at (N := N) hs.lo (by rw [enc_length]; omega) 0
    simp only [printed, hd, Int.toNat_natCast]
    rw [show N - q.bottom + footprint m2 = (enc m1 ++ List.replicate p 0).length + footprint m2 by
      simp [enc_length]; omega, a1]
    rw [enc_length, Nat.add_zero] at a2
    rw [a2]
    simp only [printFrom, List.append_assoc, List.append_nil]
    rw [records_enc hs.good1, records_zeros]
    have := records_enc hs.good2 []
    simp at this
    rw [this, hk]

/-- The whole history: the ring holds a suffix of the loggable messages. -/
theorem pushAll_inv {N f} (hN : N ≤ 2 ^ 30) (hf : 2 * N + 1 < f) (ms : List (List UInt8))
    (hms : ∀ m ∈ ms, (∀ b ∈ m, b ≠ 0) ∧ m.length + 1 ≠ N) {q kept} (h : Inv N q kept) :
    ∃ q' dropped kept', pushAll N f q ms = .ok q' ∧ Inv N q' kept' ∧
      kept ++ loggable N ms = dropped ++ kept' ∧ (kept ++ loggable N ms ≠ [] → kept' ≠ []) := by
  induction ms generalizing q kept with
  | nil => exact ⟨q, [], kept, rfl, h, by simp [loggable], by simp [loggable]⟩
  | cons m ms ih =>
    have ih := @ih (fun x hx => hms x (by simp [hx]))
    by_cases hi : m = [] ∨ N < m.length + 1
    · obtain ⟨q', d, k, e, hinv, hd, hne⟩ := ih h
      have hl : loggable N (m :: ms) = loggable N ms := by
        simp only [loggable, List.filter_cons]
        rw [if_neg]
        simp only [decide_eq_true_eq]
        rcases hi with hi | hi
        · simp [hi]
        · intro hh; omega
      exact ⟨q', d, k, by simp only [pushAll, push_ignored hi]; exact e, hinv, by rw [hl]; exact hd,
        by rw [hl]; exact hne⟩
    · have hi' : m ≠ [] ∧ ¬ N < m.length + 1 := ⟨fun a => hi (.inl a), fun a => hi (.inr a)⟩
      have hm := hms m (by simp)
      obtain ⟨q1, d1, k1, e1, hp, hinv1⟩ := push_inv hN h ⟨hi'.1, hm.1⟩ (by omega) hf
      obtain ⟨q', d, k, e, hinv, hd, hne⟩ := ih hinv1
      have hl : loggable N (m :: ms) = m :: loggable N ms := by
        simp only [loggable, List.filter_cons]
        rw [if_pos]
        simp only [decide_eq_true_eq]
        exact ⟨hi'.1, by omega⟩
      refine ⟨q', d1 ++ d, k, by simp only [pushAll, hp]; exact e, hinv, ?_, ?_⟩
      · rw [hl, e1]
        simp only [List.append_assoc] at hd ⊢
        rw [← hd]; simp
      · intro _
        exact hne (by simp)

/-- While everything fits nothing is evicted. -/
theorem pushAll_linear {N f} (hN : N ≤ 2 ^ 30) (hf : 0 < f) (ms : List (List UInt8))
    (hms : ∀ m ∈ ms, Good m) {q kept}
    (h : Inv N q kept) (hb : q.bottom = 0) (hd : q.distance = footprint kept)
    (hfit : footprint kept + footprint ms < N) :
    ∃ q', pushAll N f q ms = .ok q' ∧ Inv N q' (kept ++ ms) := by
  induction ms generalizing q kept with
  | nil => exact ⟨q, rfl, by simpa using h⟩
  | cons m ms ih =>
    have hg := hms m (by simp)
    simp only [footprint_cons] at hfit
    have hcond : ¬ (m = [] ∨ N < m.length + 1) := by
      intro hh
      rcases hh with hh | hh
      · exact hg.1 hh
      · omega
    have key : ∃ q1, push N f q m = .ok q1 ∧ Inv N q1 (kept ++ [m]) ∧ q1.bottom = 0 ∧
        q1.distance = footprint (kept ++ [m]) := by
      obtain ⟨f, rfl⟩ : ∃ g, f = g + 1 := ⟨f - 1, by omega⟩
      have ha : At q.buf 0 (enc kept) ∧ q.top = footprint kept ∧
          (0 + footprint kept ≠ 0 → q.buf 0 ≠ 0) ∧ ∀ x ∈ kept, Good x := by
        cases h with
        | empty hb ht hd hk => subst hk; simp [At, ht]
        | linear hk ha ht htN hd h0 hgk =>
          exact ⟨by rw [hb] at ha; exact ha, by omega, fun _ => h0, hgk⟩
        | wrapped m1 m2 p hk h1 h2 hs ht hd hlt => omega
      obtain ⟨ha, ht, h0, hgk⟩ := ha
      have ev : evict N q.buf (m.length + 1) (f + 1) q.bottom q.distance
          = .ok (q.bottom, (footprint kept : Int)) := by
        have := tooFull_iff (N := N) (d := footprint kept) (s := m.length + 1) (by omega)
        rw [evict, hd, this, if_neg (by simp; omega)]
      refine ⟨_, ?_, commit_linear (N := N) (b := 0) hg hgk ha (by omega) h0, rfl, ?_⟩
      · unfold push
        have hw : ¬ N ≤ q.top + (m.length + 1) := by omega
        simp only [if_neg hcond]
        rw [if_neg (by simp; omega)]
        simp only [hw, decide_false, Bool.false_eq_true, if_false, ev]
        rw [if_neg (by omega), Nat.mod_eq_of_lt (by omega), ht, hb]
        simp
      · simp [footprint_append]
    obtain ⟨q1, hp, hinv, hb1, hd1⟩ := key
    obtain ⟨q', e, hi⟩ := ih (fun x hx => hms x (by simp [hx])) hinv hb1 hd1
      (by simp [footprint_append]; omega)
    exact ⟨q', by simp only [pushAll, hp]; exact e, by simpa using hi⟩

theorem inv_init (N) : Inv N init [] := .empty rfl rfl rfl rfl

/-! ### a message of exactly the ring size -/

theorem skipNuls_forever {N : Nat} (hN : 0 < N) {buf : Nat → UInt8} (hz : ∀ i, i < N → buf i = 0)
    (fuel b t : Nat) (hb : b < N) : skipNuls N buf fuel b t = .running := by
  induction fuel generalizing b t with
  | zero => rfl
  | succ f ih =>
    simp only [skipNuls, Nat.not_le.mpr hb, if_false, hz b hb, if_true]
    exact ih _ _ (Nat.mod_lt _ hN)

end Verif.MsgQueue
