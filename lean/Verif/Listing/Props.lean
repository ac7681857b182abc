import Verif.Listing.Spec
import Verif.PcQueue.Props

/-! C49 (process listing), C51 (label printing), C64 (who is selected), C65 (labels shown), C66 (comments embedded),
C67 (comment buffer). -/

namespace Verif.Listing

/-! ### C49 -/

/-- The processes asked for, in the order of discovery. -/
def wanted (q : Query) (es : List Entry) : List Nat := (es.filter (selected q)).filterMap (·.pid)

theorem loop_none {q : Query} {es : List Entry} {last : Option Nat} (h : (next q es last).1 = none) :
    loop q es last = [] := by
  rw [loop]; split
  · rfl
  · rename_i h'; rw [h] at h'; cases h'

theorem loop_some {q : Query} {es : List Entry} {last : Option Nat} {p : Nat} (h : (next q es last).1 = some p) :
    loop q es last = p :: loop q (next q es last).2.1 (next q es last).2.2 := by
  rw [loop]; split
  · rename_i h'; rw [h] at h'; cases h'
  · rename_i h'; rw [h] at h'; cases h'; rfl

theorem loop_eq (q : Query) (es : List Entry) (last : Option Nat) : loop q es last = seen (gen q es last) := by
  induction es generalizing last with
  | nil => rw [loop_none (by simp [next])]; simp [gen, seen]
  | cons e es ih =>
    by_cases hs : selected q e
    · simp only [gen, hs, if_true]
      cases hl : (if e.collects then e.pid else last) with
      | none => rw [loop_none (by simp [next, hs, hl])]; simp [seen]
      | some p =>
        rw [loop_some (p := p) (by simp [next, hs, hl])]
        simp [next, hs, hl, seen, ih]
    · have e1 : next q (e :: es) last = next q es last := by simp [next, hs]
      have e2 : loop q (e :: es) last = loop q es last := by
        cases hn : (next q es last).1 with
        | none => rw [loop_none hn, loop_none (by rw [e1]; exact hn)]
        | some p => rw [loop_some hn, loop_some (p := p) (by rw [e1]; exact hn), e1]
      rw [e2, ih]
      simp [gen, hs]

theorem selected_pid {q : Query} {e : Entry} (h : selected q e) : ∃ p, e.pid = some p := by
  simp only [selected, Bool.and_eq_true] at h
  exact Option.isSome_iff_exists.mp h.1.1.1.1

/-- C49 if data can be collected of all processes asked for: the iteration yields exactly these, once each and in the order of
discovery.  Missing, and false (see below): processes of which no data can be collected, which should be left out. -/
theorem C49_all_once_partial (q : Query) (es : List Entry) (h : ∀ e ∈ es, selected q e → e.collects) :
    loop q es none = wanted q es := by
  rw [loop_eq]
  have : ∀ last, seen (gen q es last) = wanted q es := by
    induction es with
    | nil => intro last; simp [gen, seen, wanted]
    | cons e es ih =>
      intro last
      have ih' := ih fun e' he' => h e' (List.mem_cons_of_mem _ he')
      by_cases hs : selected q e
      · obtain ⟨p, hp⟩ := selected_pid hs
        have hc := h e (by simp) hs
        simp only [gen, hs, if_true, hc, hp, seen, ih']
        simp [wanted, hs, hp]
      · simp only [gen, hs]
        rw [if_neg (by simp), ih']
        simp [wanted, hs]
  exact this none

theorem seen_prefix : ∀ (a b : List (Option Nat)), none ∈ a → seen (a ++ b) = seen a := by
  intro a
  induction a with
  | nil => intro b h; simp at h
  | cons x a ih =>
    intro b h
    cases x with
    | none => simp [seen]
    | some p =>
      simp only [List.cons_append, seen]
      rw [ih b (by simpa using h)]

theorem gen_none (q : Query) (es : List Entry) (last) : none ∈ gen q es last := by
  induction es generalizing last with
  | nil => simp [gen]
  | cons e es ih =>
    by_cases hs : selected q e
    · simp only [gen, hs, if_true]; exact List.mem_cons_of_mem _ (ih _)
    · simp only [gen, hs]; exact ih _

/-- C49, the thread makes no difference: in every interleaving of the worker thread and the main thread, as soon as the main
thread has got a NULL, what it has seen is what it sees without a thread. -/
theorem C49_thread_same (q : Query) (es : List Entry) (n : Nat) (hn : 0 < n) (elem : Nat → Option Nat)
    (s : PcQueue.St (Option Nat)) (h : PcQueue.Reach (PcQueue.init n elem) s) (hp : s.acc <+: gen q es none)
    (hd : none ∈ s.out) : seen s.out = loop q es none := by
  obtain ⟨h1, -, -, -⟩ := PcQueue.C34_fifo hn h
  obtain ⟨r, hr⟩ := hp
  rw [loop_eq, ← hr]
  have e : s.acc = s.out ++ s.acc.drop s.out.length := by
    conv => lhs; rw [← List.take_append_drop s.out.length s.acc]
    rw [← h1]
  rw [e, List.append_assoc, seen_prefix _ _ hd]

/-- The negation, first form: if no data can be collected of the first process asked for, none at all is yielded. -/
theorem C49_first_failure_ends (q : Query) (a b : List Entry) (e : Entry) (ha : ∀ x ∈ a, ¬ selected q x)
    (he : selected q e) (hf : e.collects = false) : loop q (a ++ e :: b) none = [] := by
  rw [loop_eq]
  induction a with
  | nil => simp [gen, he, hf, seen]
  | cons x a ih =>
    have hx := ha x (by simp)
    simp only [List.cons_append, gen, hx]
    exact ih fun y hy => ha y (List.mem_cons_of_mem _ hy)

/-- The last process of which data was collected. -/
def lastCollected (q : Query) (es : List Entry) (last : Option Nat) : Option Nat :=
  es.foldl (fun l e => if selected q e ∧ e.collects then e.pid else l) last

theorem gen_append (q : Query) (a b : List Entry) (last : Option Nat) :
    ∃ c, c.length = (a.filter (selected q)).length ∧ gen q (a ++ b) last = c ++ gen q b (lastCollected q a last)
      ∧ (last ≠ none → none ∉ c) := by
  induction a generalizing last with
  | nil => exact ⟨[], rfl, rfl, by simp⟩
  | cons e a ih =>
    by_cases hs : selected q e
    · obtain ⟨c, h1, h2, h3⟩ := ih (if e.collects then e.pid else last)
      refine ⟨(if e.collects then e.pid else last) :: c, by simp [hs, h1], ?_, ?_⟩
      · simp only [List.cons_append, gen, hs, if_true, h2]
        congr 3
        simp [lastCollected, hs]
      · intro hl
        obtain ⟨p, hp⟩ := selected_pid hs
        have : (if e.collects then e.pid else last) ≠ none := by split <;> simp [hp, hl]
        simp only [List.mem_cons, not_or]
        exact ⟨fun h => this h.symm, h3 this⟩
    · obtain ⟨c, h1, h2, h3⟩ := ih last
      refine ⟨c, by simp [hs, h1], ?_, h3⟩
      simp only [List.cons_append, gen, hs]
      rw [if_neg (by simp), h2]
      simp [lastCollected, hs]

theorem seen_append_some (c : List (Option Nat)) (d : List (Option Nat)) (h : none ∉ c) :
    seen (c ++ d) = c.filterMap id ++ seen d := by
  induction c with
  | nil => simp
  | cons x c ih =>
    simp only [List.mem_cons, not_or] at h
    cases x with
    | none => exact absurd rfl h.1
    | some p => simp [seen, ih h.2]

/-- The negation, second form: a process of which no data can be collected, found after one of which data was collected, makes
the last process of which data was collected be yielded once more. -/
theorem C49_failure_repeats (q : Query) (f : Entry) (a b : List Entry) (e : Entry) (hf : selected q f)
    (hfc : f.collects = true) (he : selected q e) (hec : e.collects = false) :
    ∃ (x y : List Nat) (p : Nat), lastCollected q (f :: a) none = some p
      ∧ loop q (f :: a ++ e :: b) none = x ++ [p] ++ y ∧ x.length = (a.filter (selected q)).length + 1 := by
  obtain ⟨p0, hp0⟩ := selected_pid hf
  obtain ⟨c, h1, h2, h3⟩ := gen_append q a (e :: b) (some p0)
  have hlast : lastCollected q (f :: a) none = lastCollected q a (some p0) := by
    simp [lastCollected, hf, hfc, hp0]
  have hsome : ∀ (a : List Entry) (l : Option Nat), l ≠ none → lastCollected q a l ≠ none := by
    intro a
    induction a with
    | nil => exact fun l h => h
    | cons x a ih =>
      intro l hl
      simp only [lastCollected, List.foldl_cons]
      apply ih
      split
      · rename_i hx
        obtain ⟨px, hpx⟩ := selected_pid hx.1
        simp [hpx]
      · exact hl
  obtain ⟨p, hp⟩ := Option.ne_none_iff_exists'.mp (hsome a (some p0) (by simp))
  refine ⟨p0 :: c.filterMap id, seen (gen q b (some p)), p, by rw [hlast, hp], ?_, ?_⟩
  · rw [loop_eq]
    simp only [List.cons_append, gen, hf, if_true, hfc, hp0]
    rw [h2, seen, seen_append_some _ _ (h3 (by simp)), hp]
    simp [gen, he, hec, seen]
  · have hc : none ∉ c := h3 (by simp)
    have : ∀ c : List (Option Nat), none ∉ c → (c.filterMap id).length = c.length := by
      intro c
      induction c with
      | nil => simp
      | cons x c ih =>
        intro h
        simp only [List.mem_cons, not_or] at h
        cases x with
        | none => exact absurd rfl h.1
        | some y => simp [ih h.2]
    simp only [List.length_cons, this c hc, h1]

/-- And with the worker thread: the main thread stops at the NULL and waits for the worker to finish, but the worker cannot
finish if more remains than the queue takes. -/
theorem C49_first_failure_hangs (q : Query) (es : List Entry) (n : Nat) (hn : 0 < n) (elem : Nat → Option Nat)
    (s : PcQueue.St (Option Nat)) (h : PcQueue.Reach (PcQueue.init n elem) s)
    (hout : s.out = [none]) (hlen : n + 1 < (gen q es none).length) : s.acc ≠ gen q es none := by
  obtain ⟨-, -, h3, -⟩ := PcQueue.C34_fifo hn h
  intro he
  rw [he, hout] at h3
  simp at h3; omega

/-- Three processes, of the first of which no data can be collected. -/
def demoQ : Query := { wildcard := none, userWildcard := none, targetUid := 0, self := 1, fnmatch := fun _ _ => true }
def demoE (p : Nat) (c : Bool) : Entry := { pid := some p, name := [], uid := 0, user := none, libpulp := true, collects := c }

example : seen (gen demoQ [demoE 10 true, demoE 11 true, demoE 12 true] none) = [10, 11, 12] := by decide
example : seen (gen demoQ [demoE 10 false, demoE 11 true, demoE 12 true] none) = [] := by decide
example : seen (gen demoQ [demoE 10 true, demoE 11 false, demoE 12 true] none) = [10, 10, 12] := by decide

/-! ### C64 -/

/-- The user asked for: the owner by number, or by a name that matches. -/
def UserMatches (q : Query) (w : Str) (e : Entry) : Prop :=
  if q.targetUid > 0 then e.uid = q.targetUid else ∃ u, e.user = some u ∧ q.fnmatch w u

/-- C64: only processes with libpulp whose name matches are selected, never the tool itself; and for processes of users other
than root that have a name, only those of the user asked for.  Missing, and false (see below): root's processes. -/
theorem C64_selected_partial (q : Query) (e : Entry) (hu : q.targetUid = 0 → 0 < e.uid ∧ e.user ≠ none) :
    selected q e ↔ (∃ p, e.pid = some p ∧ p ≠ q.self) ∧ e.libpulp
      ∧ (∀ w, q.wildcard = some w → q.fnmatch w e.name) ∧ (∀ w, q.userWildcard = some w → UserMatches q w e) := by
  have hn : nameOk q e ↔ ∀ w, q.wildcard = some w → q.fnmatch w e.name := by
    unfold nameOk
    cases q.wildcard <;> simp
  have hw : userOk q e ↔ ∀ w, q.userWildcard = some w → UserMatches q w e := by
    unfold userOk UserMatches
    cases q.userWildcard with
    | none => simp
    | some w =>
      by_cases ht : q.targetUid > 0
      · simp [ht]
      · obtain ⟨h1, h2⟩ := hu (by omega)
        obtain ⟨u, hu'⟩ := Option.ne_none_iff_exists'.mp h2
        simp [ht, h1, hu']
  unfold selected
  simp only [Bool.and_eq_true, hn, hw, bne_iff_ne, ne_eq]
  constructor
  · rintro ⟨⟨⟨⟨h1, h2⟩, h3⟩, h4⟩, h5⟩
    obtain ⟨p, hp⟩ := Option.isSome_iff_exists.mp h1
    exact ⟨⟨p, hp, fun h => h4 (by rw [hp, h])⟩, h5, h2, h3⟩
  · rintro ⟨⟨p, hp, hne⟩, h5, h2, h3⟩
    exact ⟨⟨⟨⟨by simp [hp], h2⟩, h3⟩, by rw [hp]; simpa using hne⟩, h5⟩

/-- The negation: root's processes (and those whose owner cannot be found out) are selected whatever user name is asked
for. -/
theorem C64_root_always (q : Query) (e : Entry) (ht : q.targetUid = 0) (hu : e.uid = 0) : userOk q e := by
  unfold userOk
  cases q.userWildcard <;> simp [ht, hu]

/-- And so are processes of users without a name. -/
theorem C64_nameless_always (q : Query) (e : Entry) (ht : q.targetUid = 0) (hu : e.user = none) : userOk q e := by
  unfold userOk
  cases q.userWildcard <;> simp [ht, hu]

example : (demoE 10 true).uid = 0 ∧ userOk { demoQ with userWildcard := some [97], fnmatch := fun _ _ => false } (demoE 10 true) :=
  ⟨rfl, by decide⟩

/-! ### C51 -/

theorem spanLen_le (p : UInt8 → Bool) (l : List UInt8) : spanLen p l ≤ l.length := by
  unfold spanLen
  exact (List.takeWhile_prefix p).length_le

open Spec (IsLabel Text canEnd starts)

theorem digit_eq : Spec.digit = isDigit := rfl
theorem letter_eq : Spec.letter = isAlpha := rfl
theorem fold_eq : Spec.fold = lower := rfl
theorem bsc_eq : Spec.bsc = bsc := rfl
theorem jsc_eq : Spec.jsc = jsc := rfl
theorem cve_eq : Spec.cve = cve := rfl
theorem begins_eq : Spec.begins = hasPrefix := rfl

theorem spanLen_last {p : UInt8 → Bool} {l : List UInt8} {i : Nat} (h : i < spanLen p l) : ∃ c, l[i]? = some c ∧ p c := by
  unfold spanLen at h
  have h1 : (l.takeWhile p)[i]? = some ((l.takeWhile p)[i]'h) := List.getElem?_eq_getElem h
  have h2 : (l.takeWhile p)[i]'h ∈ l.takeWhile p := List.getElem_mem h
  have h3 : p ((l.takeWhile p)[i]'h) := by
    have := List.all_takeWhile (p := p) (l := l)
    rw [List.all_eq_true] at this
    exact this _ h2
  refine ⟨_, ?_, h3⟩
  rw [← h1]
  conv => lhs; rw [← List.takeWhile_append_dropWhile (p := p) (l := l)]
  rw [List.getElem?_append_left h]

theorem lower_eq {c d : UInt8} (h : lower c = d) : c = d ∨ (c = d - 32 ∧ 65 ≤ c ∧ c ≤ 90) := by
  unfold lower at h
  split at h
  · rename_i hc
    simp only [Bool.and_eq_true, decide_eq_true_eq] at hc
    right; exact ⟨by rw [← h]; simp, hc⟩
  · exact .inl h

/-- With a prefix, the first four characters are there, and the last of them may end a label. -/
theorem prefix_facts {p l : List UInt8} (hp : p = bsc ∨ p = jsc ∨ p = cve) (h : hasPrefix p l) :
    ∃ a b c d r, l = a :: b :: c :: d :: r ∧ canEnd d ∧ lower a = p.headD 0 := by
  unfold hasPrefix at h
  have h' : (l.take 4).map lower = p := by simpa using h
  match l, h' with
  | [], h' => rcases hp with rfl | rfl | rfl <;> simp [bsc, jsc, cve] at h'
  | [_], h' => rcases hp with rfl | rfl | rfl <;> simp [bsc, jsc, cve] at h'
  | [_, _], h' => rcases hp with rfl | rfl | rfl <;> simp [bsc, jsc, cve] at h'
  | [_, _, _], h' => rcases hp with rfl | rfl | rfl <;> simp [bsc, jsc, cve] at h'
  | a :: b :: c :: d :: r, h' =>
    refine ⟨a, b, c, d, r, rfl, ?_, ?_⟩
    · rcases hp with rfl | rfl | rfl
      · simp [bsc] at h'
        rcases lower_eq h'.2.2.2 with rfl | ⟨rfl, h1, h2⟩
        · decide
        · exact absurd h1 (by decide)
      · simp [jsc] at h'
        rcases lower_eq h'.2.2.2 with rfl | ⟨rfl, h1, h2⟩
        · decide
        · exact absurd h1 (by decide)
      · simp [cve] at h'
        rcases lower_eq h'.2.2.2 with rfl | ⟨rfl, h1, h2⟩
        · decide
        · exact absurd h1 (by decide)
    · rw [← h']; simp

/-- The character before position `k` may end a label. -/
def EndsAt (l : List UInt8) (k : Nat) : Prop := 4 ≤ k ∧ ∃ c, l[k - 1]? = some c ∧ canEnd c

theorem endsAt_span {p : UInt8 → Bool} (hp : ∀ c, p c → canEnd c) {l : List UInt8} {k : Nat} (h : EndsAt l k) :
    EndsAt l (k + spanLen p (l.drop k)) := by
  by_cases h0 : spanLen p (l.drop k) = 0
  · rw [h0]; exact h
  · obtain ⟨c, h1, h2⟩ := spanLen_last (p := p) (l := l.drop k) (i := spanLen p (l.drop k) - 1) (by omega)
    rw [List.getElem?_drop] at h1
    refine ⟨by have := h.1; omega, c, ?_, hp c h2⟩
    rwa [show k + spanLen p (l.drop k) - 1 = k + (spanLen p (l.drop k) - 1) by omega]

theorem endsAt_dash {l : List UInt8} {k : Nat} (h : EndsAt l k) : EndsAt l (k + dashLen (l.drop k)) := by
  unfold dashLen
  split
  · rename_i r hr
    have h1 : EndsAt l (k + 1) := by
      refine ⟨by have := h.1; omega, 45, ?_, by decide⟩
      have : (l.drop k)[0]? = some 45 := by rw [hr]; rfl
      rw [List.getElem?_drop] at this
      simpa using this
    have h2 : l.drop (k + 1) = r := by
      rw [← List.drop_drop, hr]; rfl
    have := endsAt_span (p := isDigit) (fun c hc => by simp [canEnd, digit_eq, letter_eq, hc]) h1
    rw [h2] at this
    rwa [Nat.add_assoc] at this
  · exact h

theorem labelLen_ends {l : List UInt8} {k : Nat} (h : labelLen l = some k) : EndsAt l k := by
  have base : ∀ p, (p = bsc ∨ p = jsc ∨ p = cve) → hasPrefix p l → EndsAt l 4 := by
    intro p hp hh
    obtain ⟨a, b, c, d, r, rfl, h1, -⟩ := prefix_facts hp hh
    exact ⟨Nat.le_refl _, d, rfl, h1⟩
  unfold labelLen at h
  split at h
  · rename_i hh
    cases h
    exact endsAt_span (fun c hc => by simp [canEnd, digit_eq, letter_eq, hc]) (base bsc (by simp) hh)
  · split at h
    · rename_i hh
      cases h
      exact endsAt_dash (endsAt_span (fun c hc => by simp [canEnd, digit_eq, letter_eq, hc]) (base jsc (by simp) hh))
    · split at h
      · rename_i hh
        cases h
        exact endsAt_dash (endsAt_span (fun c hc => by simp [canEnd, digit_eq, letter_eq, hc]) (base cve (by simp) hh))
      · cases h

theorem scan_zero (r : List UInt8) : scan (0 :: r) = some [] := by rw [scan]

theorem scan_label {c : UInt8} {r : List UInt8} {k : Nat} (hc : c ≠ 0) (h : labelLen (c :: r) = some k) :
    scan (c :: r) = (scan ((c :: r).drop (k + 1))).map (((c :: r).take k) :: ·) := by
  rw [scan]
  · rw [h]
  · exact hc

theorem scan_plain {c : UInt8} {r : List UInt8} (hc : c ≠ 0) (h : labelLen (c :: r) = none) : scan (c :: r) = scan r := by
  rw [scan]
  · rw [h]
  · exact hc

/-- In a text with its NUL, a label lies within the text. -/
theorem label_within {t : List UInt8} {k : Nat} (h : labelLen (t ++ [0]) = some k) :
    4 ≤ k ∧ k ≤ t.length ∧ ∃ c, t[k - 1]? = some c ∧ canEnd c := by
  obtain ⟨h1, c, h2, h3⟩ := labelLen_ends h
  have hlt := (List.getElem?_eq_some_iff.mp h2).1
  simp only [List.length_append, List.length_cons, List.length_nil] at hlt
  have hne : k - 1 ≠ t.length := by
    intro he
    rw [he] at h2
    simp at h2
    subst h2
    exact absurd h3 (by decide)
  refine ⟨h1, by omega, c, ?_, h3⟩
  rwa [List.getElem?_append_left (by omega)] at h2

/-- C51 for texts that do not end in a character that may be the last of a label (the packer's texts end in a newline): no
byte behind the text and its NUL is read.  Missing, and false (see below): texts that end in a label. -/
theorem C51_no_overread_partial (t : List UInt8) (hz : (0 : UInt8) ∉ t) (hl : ∀ c, t.getLast? = some c → ¬ canEnd c) :
    scan (t ++ [0]) ≠ none := by
  induction hn : t.length using Nat.strongRecOn generalizing t with
  | ind n ih =>
    match t, hz, hl, hn with
    | [], _, _, _ => rw [List.nil_append, scan_zero]; simp
    | c :: r, hz, hl, hn =>
      have hc : c ≠ 0 := fun h => hz (by simp [h])
      cases hk : labelLen (c :: r ++ [0]) with
      | none =>
        rw [List.cons_append] at hk ⊢
        rw [scan_plain hc hk]
        refine ih r.length (by simp at hn; omega) r (fun h => hz (List.mem_cons_of_mem _ h)) ?_ rfl
        intro d hd
        refine hl d ?_
        rw [List.getLast?_cons]
        simp [hd]
      | some k =>
        obtain ⟨h4, hle, d, hd1, hd2⟩ := label_within hk
        have hlt : k < (c :: r).length := by
          rcases Nat.lt_or_eq_of_le hle with h | h
          · exact h
          · exfalso
            refine hl d ?_ hd2
            rw [List.getLast?_eq_getElem?, ← h]; exact hd1
        have hdrop : (c :: r ++ [0]).drop (k + 1) = (c :: r).drop (k + 1) ++ [0] := by
          rw [List.drop_append_of_le_length (by omega)]
        rw [List.cons_append] at hk hdrop ⊢
        rw [scan_label hc hk, hdrop]
        have := ih ((c :: r).drop (k + 1)).length (by rw [List.length_drop]; omega) ((c :: r).drop (k + 1))
          (fun h => hz (List.mem_of_mem_drop h)) (by
            intro e he
            refine hl e ?_
            rw [List.getLast?_drop] at he
            split at he
            · cases he
            · exact he) rfl
        intro hnone
        rw [Option.map_eq_none_iff] at hnone
        exact this hnone

theorem labelLen_none {c : UInt8} {r : List UInt8} (h : starts c = false) : labelLen (c :: r) = none := by
  have : ∀ p, (p = bsc ∨ p = jsc ∨ p = cve) → hasPrefix p (c :: r) = false := by
    intro p hp
    cases hh : hasPrefix p (c :: r) with
    | false => rfl
    | true =>
      obtain ⟨a, b, d, e, r', h1, -, h2⟩ := prefix_facts hp hh
      cases h1
      rcases hp with rfl | rfl | rfl <;> simp [starts, fold_eq, h2, bsc, jsc, cve] at h
  unfold labelLen
  simp [this bsc (by simp), this jsc (by simp), this cve (by simp)]

theorem spanLen_all {p : UInt8 → Bool} {d : List UInt8} {x : UInt8} {r : List UInt8} (hd : ∀ c ∈ d, p c) (hx : ¬ p x) :
    spanLen p (d ++ x :: r) = d.length := by
  unfold spanLen
  rw [List.takeWhile_append_of_pos hd, List.takeWhile_cons]
  simp [hx]

/-- The negation: whenever the text ends in the number of a bug, the byte behind the NUL is read. -/
theorem C51_overread (t d : List UInt8) (ht : ∀ c ∈ t, c ≠ 0 ∧ starts c = false) (hd : ∀ c ∈ d, Spec.digit c) :
    scan (t ++ Spec.bsc ++ d ++ [0]) = none := by
  rw [digit_eq] at hd
  rw [bsc_eq]
  induction t with
  | nil =>
    have hk : labelLen (98 :: ([115, 99, 35] ++ d ++ [0])) = some (4 + d.length) := by
      have h1 : hasPrefix bsc (98 :: ([115, 99, 35] ++ d ++ [0])) := by simp [hasPrefix, bsc, lower]
      unfold labelLen
      rw [if_pos h1]
      have : (98 :: ([115, 99, 35] ++ d ++ [0])).drop 4 = d ++ [0] := by simp
      rw [this, spanLen_all hd (by decide)]
    have e : [] ++ bsc ++ d ++ [0] = 98 :: ([115, 99, 35] ++ d ++ [0]) := by simp [bsc]
    rw [e, scan_label (by decide) hk]
    have : (98 :: ([115, 99, 35] ++ d ++ [0])).drop (4 + d.length + 1) = [] := by
      apply List.drop_eq_nil_of_le; simp; omega
    rw [this, scan]; rfl
  | cons c t ih =>
    have h1 := ht c (by simp)
    have e : c :: t ++ bsc ++ d ++ [0] = c :: (t ++ bsc ++ d ++ [0]) := by simp
    rw [e, scan_plain h1.1 (labelLen_none h1.2)]
    exact ih fun x hx => ht x (List.mem_cons_of_mem _ hx)

/-- "fix bsc#12" -/
example : scan ([102, 105, 120, 32] ++ bsc ++ [49, 50] ++ [0]) = none :=
  C51_overread [102, 105, 120, 32] [49, 50] (by decide) (by decide)
/-- "fix bsc#12\n" -/
example : scan ([102, 105, 120, 32] ++ bsc ++ [49, 50, 10] ++ [0]) ≠ none :=
  C51_no_overread_partial ([102, 105, 120, 32] ++ bsc ++ [49, 50, 10]) (by decide) (by decide)

/-! ### C65 -/

theorem hasPrefix_append {p r : List UInt8} {l : List UInt8} (hl : p.length = 4) (h : l.map lower = p) :
    hasPrefix p (l ++ r) := by
  have : l.length = 4 := by rw [← hl, ← h]; simp
  unfold hasPrefix
  rw [List.take_append_of_le_length (by omega), List.take_of_length_le (by omega), h]
  simp

theorem hasPrefix_zero {p l : List UInt8} (hp : p = bsc ∨ p = jsc ∨ p = cve) (h : hasPrefix p l = false) :
    hasPrefix p (l ++ [0]) = false := by
  cases hh : hasPrefix p (l ++ [0]) with
  | false => rfl
  | true =>
    by_cases hl : 4 ≤ l.length
    · unfold hasPrefix at hh h
      rw [List.take_append_of_le_length hl] at hh
      rw [h] at hh; cases hh
    · obtain ⟨a, b, c, d, r, h1, h2, -⟩ := prefix_facts hp hh
      match l, hl, h1 with
      | [], _, h1 => simp at h1
      | [_], _, h1 => simp at h1
      | [_, _], _, h1 => simp at h1
      | [_, _, _], _, h1 =>
        simp at h1
        obtain ⟨-, -, -, hd, -⟩ := h1
        subst hd
        exact absurd h2 (by decide)
      | _ :: _ :: _ :: _ :: _, hl, _ => simp at hl

theorem prefix_unique {p p' l : List UInt8} (hp : p ≠ p') (h : hasPrefix p l) : hasPrefix p' l = false := by
  unfold hasPrefix at h ⊢
  have h' : (l.take 4).map lower = p := by simpa using h
  rw [h']
  simpa using hp

theorem label_len {l r : Str} {s : UInt8} (h : IsLabel l) (hs : canEnd s = false) :
    labelLen (l ++ s :: r) = some l.length := by
  have hsd : ¬ isDigit s := by intro h; simp [canEnd, digit_eq, letter_eq, h] at hs
  have hsa : ¬ isAlpha s := by intro h; simp [canEnd, digit_eq, letter_eq, h] at hs
  cases h with
  | bsc p d hp hd =>
    rw [fold_eq, bsc_eq] at hp; rw [digit_eq] at hd
    have hlen : p.length = 4 := by have := congrArg List.length hp; simpa [bsc] using this
    have e : p ++ d ++ s :: r = p ++ (d ++ s :: r) := by simp
    unfold labelLen
    rw [e, if_pos (hasPrefix_append rfl hp)]
    rw [List.drop_append_of_le_length (by omega), List.drop_of_length_le (by omega), List.nil_append, spanLen_all hd hsd]
    simp [hlen]
  | jsc p a d hp ha hd =>
    rw [fold_eq, jsc_eq] at hp; rw [letter_eq] at ha; rw [digit_eq] at hd
    have hlen : p.length = 4 := by have := congrArg List.length hp; simpa [jsc] using this
    have e : p ++ a ++ [45] ++ d ++ s :: r = p ++ (a ++ 45 :: (d ++ s :: r)) := by simp
    have hj := hasPrefix_append (r := a ++ 45 :: (d ++ s :: r)) (p := jsc) rfl hp
    unfold labelLen
    rw [e, if_neg (by rw [prefix_unique (p' := bsc) (by decide) hj]; simp), if_pos hj]
    rw [List.drop_append_of_le_length (by omega), List.drop_of_length_le (by omega), List.nil_append,
      spanLen_all ha (by decide)]
    have e2 : (p ++ (a ++ 45 :: (d ++ s :: r))).drop (4 + a.length) = 45 :: (d ++ s :: r) := by
      rw [← List.append_assoc, List.drop_append_of_le_length (by simp; omega), List.drop_of_length_le (by simp; omega)]
      simp
    simp only [e2, dashLen]
    rw [spanLen_all hd hsd]
    simp [hlen]; omega
  | cve p a d hp ha hd =>
    rw [fold_eq, cve_eq] at hp; rw [digit_eq] at ha hd
    have hlen : p.length = 4 := by have := congrArg List.length hp; simpa [cve] using this
    have e : p ++ a ++ [45] ++ d ++ s :: r = p ++ (a ++ 45 :: (d ++ s :: r)) := by simp
    have hj := hasPrefix_append (r := a ++ 45 :: (d ++ s :: r)) (p := cve) rfl hp
    unfold labelLen
    rw [e, if_neg (by rw [prefix_unique (p' := bsc) (by decide) hj]; simp),
      if_neg (by rw [prefix_unique (p' := jsc) (by decide) hj]; simp), if_pos hj]
    rw [List.drop_append_of_le_length (by omega), List.drop_of_length_le (by omega), List.nil_append,
      spanLen_all ha (by decide)]
    have e2 : (p ++ (a ++ 45 :: (d ++ s :: r))).drop (4 + a.length) = 45 :: (d ++ s :: r) := by
      rw [← List.append_assoc, List.drop_append_of_le_length (by simp; omega), List.drop_of_length_le (by simp; omega)]
      simp
    simp only [e2, dashLen]
    rw [spanLen_all hd hsd]
    simp [hlen]; omega

theorem label_nonempty {l : Str} (h : IsLabel l) : ∃ c r, l = c :: r ∧ c ≠ 0 := by
  have key : ∀ (p q : Str), p.map lower = bsc ∨ p.map lower = jsc ∨ p.map lower = cve → ∃ c r, p ++ q = c :: r ∧ c ≠ 0 := by
    intro p q hp
    cases p with
    | nil => simp [bsc, jsc, cve] at hp
    | cons c p =>
      refine ⟨c, p ++ q, rfl, ?_⟩
      rintro rfl
      simp [bsc, jsc, cve, lower] at hp
  cases h with
  | bsc p d hp _ => exact key p d (.inl hp)
  | jsc p a d hp _ _ => rw [List.append_assoc, List.append_assoc]; exact key p _ (.inr (.inl hp))
  | cve p a d hp _ _ => rw [List.append_assoc, List.append_assoc]; exact key p _ (.inr (.inr hp))

/-- C65: all labels of a text are printed, in their order, and nothing else. -/
theorem C65_labels_shown (t : Str) (ls : List Str) (h : Text t ls) : scan (t ++ [0]) = some ls := by
  induction h with
  | nil => rw [List.nil_append, scan_zero]
  | plain c r ls hc h1 h2 h3 _ ih =>
    have hk : labelLen (c :: r ++ [0]) = none := by
      unfold labelLen
      rw [hasPrefix_zero (.inl rfl) h1, hasPrefix_zero (.inr (.inl rfl)) h2, hasPrefix_zero (.inr (.inr rfl)) h3]
      rfl
    rw [List.cons_append] at hk ⊢
    rw [scan_plain hc hk, ih]
  | label l s r ls hl hs hse _ ih =>
    obtain ⟨c, q, rfl, hc⟩ := label_nonempty hl
    have hk := label_len (r := r ++ [0]) hl hse
    have e : c :: q ++ s :: r ++ [0] = c :: (q ++ s :: (r ++ [0])) := by simp
    have e1 : c :: q ++ s :: (r ++ [0]) = c :: (q ++ s :: (r ++ [0])) := by simp
    rw [e1] at hk
    rw [e, scan_label hc hk]
    have e2 : (c :: (q ++ s :: (r ++ [0]))).drop ((c :: q).length + 1) = r ++ [0] := by
      rw [← e1, ← List.drop_drop, List.drop_left]; rfl
    have e3 : (c :: (q ++ s :: (r ++ [0]))).take (c :: q).length = c :: q := by
      rw [← e1, List.take_left]
    rw [e2, ih, e3]; rfl

/-- The text "BSC#12, CVE-1-2\n". -/
example : Text ([66, 83, 67, 35, 49, 50] ++ 44 :: 32 :: ([67, 86, 69, 45] ++ [49] ++ [45] ++ [50] ++ 10 :: []))
    [[66, 83, 67, 35, 49, 50], [67, 86, 69, 45] ++ [49] ++ [45] ++ [50]] :=
  .label _ _ _ _ (.bsc [66, 83, 67, 35] [49, 50] (by decide) (by decide)) (by decide) (by decide)
    (.plain _ _ _ (by decide) (by decide) (by decide) (by decide)
      (.label _ _ _ _ (.cve _ _ _ (by decide) (by decide) (by decide)) (by decide) (by decide) .nil))

/-! ### C66 -/

theorem readComment_frame {c c' : Comments} {l : Str} (h : readComment c l = some c') :
    c'.pos = c.pos + l.length ∧ c.size ≤ c'.size ∧ c'.pos < c'.size
      ∧ (∀ i, i < c.pos → c'.mem i = c.mem i) := by
  unfold readComment at h
  split at h
  · rename_i hc
    cases h
    refine ⟨rfl, ?_, hc, ?_⟩
    · simp only [newSize]; split <;> omega
    · intro i hi
      simp only
      rw [store_out (.inl (by omega)), store_out (.inl (by omega))]
  · cases h

theorem readComments_frame {c c' : Comments} {ls : List Str} (h : readComments c ls = some c') :
    ∀ i, i < c.pos → c'.mem i = c.mem i := by
  induction ls generalizing c with
  | nil => simp only [readComments, Option.some.injEq] at h; subst h; exact fun _ _ => rfl
  | cons l ls ih =>
    simp only [readComments, Option.bind_eq_some_iff] at h
    obtain ⟨c1, h1, h2⟩ := h
    obtain ⟨f1, -, -, f4⟩ := readComment_frame h1
    intro i hi
    rw [ih h2 i (by omega), f4 i hi]

/-- After the first comment: its text, then a byte nobody wrote. -/
theorem first_comment {junk : Mem} {l : Str} {c : Comments} (hl : l ≠ [])
    (h : readComment ⟨junk, 0, 0⟩ l = some c) :
    c.pos = l.length ∧ At c.mem 0 (l.drop 1) ∧ c.mem (l.length - 1) = junk (l.length - 1) ∧ c.mem l.length = 0 := by
  have hlen : 0 < l.length := List.length_pos_iff.mpr hl
  unfold readComment at h
  simp only [Nat.zero_add] at h
  split at h
  · cases h
    refine ⟨rfl, ?_, ?_, ?_⟩
    · simp only
      unfold At
      rw [load_store_out (by simp)]
      exact at_store _ _ _
    · simp only
      rw [store_out (by omega), store_out (by simp)]
    · simp only
      have := store_in (m := junk.store 0 (l.drop 1)) (a := l.length) (bytes := [0]) (i := 0) (by simp)
      simpa using this
  · cases h

theorem takeWhile_stop (a : List UInt8) (b : List UInt8) (h : (0 : UInt8) ∉ a) :
    (a ++ 0 :: b).takeWhile (· != 0) = a := by
  induction a with
  | nil => simp
  | cons x a ih =>
    simp only [List.mem_cons, not_or] at h
    rw [List.cons_append, List.takeWhile_cons]
    simp only [bne_iff_ne, ne_eq]
    rw [if_pos (by simpa using fun hx => h.1 hx.symm), ih h.2]

/-- What is embedded if the byte between the first two comments is zero. -/
theorem embedded_first {m : Mem} {l : Str} (hl : l ≠ []) (hz : (0 : UInt8) ∉ l) (h1 : At m 0 (l.drop 1))
    (h2 : m (l.length - 1) = 0) (n : Nat) (hn : l.length ≤ n) : embedded m n = l.drop 1 := by
  have hlen : 0 < l.length := List.length_pos_iff.mpr hl
  unfold embedded
  have e : n = (l.drop 1).length + (1 + (n - l.length)) := by simp; omega
  have hat : m.load 0 (l.drop 1).length = l.drop 1 := h1
  have h3 : m.load (0 + (l.drop 1).length) 1 = [0] := by
    have := load_getElem m (0 + (l.drop 1).length) 1 0 (by simp)
    have hlen1 : (m.load (0 + (l.drop 1).length) 1).length = 1 := by simp
    match hm : m.load (0 + (l.drop 1).length) 1, hlen1 with
    | [x], _ =>
      simp only [hm] at this
      simp at this
      rw [this, h2]
  rw [e, load_append, load_append, hat, h3]
  rw [List.singleton_append]
  exact takeWhile_stop _ _ fun h => hz (List.mem_of_mem_drop h)

/-- C66 for a description with one comment, if the byte behind it in the newly allocated buffer is zero: the comment is
embedded.  Missing, and false (see below): more than one comment. -/
theorem C66_one_comment_partial (junk : Mem) (l : Str) (c : Comments) (hl : l ≠ []) (hz : (0 : UInt8) ∉ l)
    (hj : junk (l.length - 1) = 0) (h : readComments ⟨junk, 0, 0⟩ [l] = some c) :
    embedded c.mem c.size = l.drop 1 := by
  simp only [readComments, Option.bind_eq_some_iff, Option.some.injEq, exists_eq_right] at h
  obtain ⟨h1, h2, h3, -⟩ := first_comment hl h
  obtain ⟨-, -, h4, -⟩ := readComment_frame h
  exact embedded_first hl hz h2 (by rw [h3, hj]) _ (by omega)

/-- The negation: in the same case, only the first of any number of comments is embedded. -/
theorem C66_only_first_comment (junk : Mem) (l : Str) (ls : List Str) (c : Comments) (hl : l ≠ []) (hz : (0 : UInt8) ∉ l)
    (hj : junk (l.length - 1) = 0) (h : readComments ⟨junk, 0, 0⟩ (l :: ls) = some c) (n : Nat) (hn : l.length ≤ n) :
    embedded c.mem n = l.drop 1 := by
  have hlen : 0 < l.length := List.length_pos_iff.mpr hl
  simp only [readComments, Option.bind_eq_some_iff] at h
  obtain ⟨c1, h1, h2⟩ := h
  obtain ⟨p1, p2, p3, -⟩ := first_comment hl h1
  have hf := readComments_frame h2
  rw [p1] at hf
  refine embedded_first hl hz ?_ ?_ n hn
  · refine (at_congr fun i _ hi => ?_).mpr p2
    have : (l.drop 1).length = l.length - 1 := by simp
    exact hf i (by omega)
  · rw [hf _ (by omega), p3, hj]

/-- And if that byte is something else, it is embedded too: what was in the heap ends up in the patch. -/
theorem C66_heap_byte_embedded (junk : Mem) (l : Str) (c : Comments) (hl : l ≠ []) 
    (h : readComments ⟨junk, 0, 0⟩ [l] = some c) :
    c.mem (l.length - 1) = junk (l.length - 1) ∧ c.mem l.length = 0 := by
  simp only [readComments, Option.bind_eq_some_iff, Option.some.injEq, exists_eq_right] at h
  exact (first_comment hl h).2.2

/-- "!a\n", "!b\n" -/
example : ∃ c, readComments ⟨fun _ => 0, 0, 0⟩ [[33, 97, 10], [33, 98, 10]] = some c ∧ embedded c.mem 10 = [97, 10] := by
  refine ⟨_, rfl, ?_⟩
  decide +kernel

/-! ### C67 -/

/-- C67 for lines shorter than 128 KiB: no byte behind the buffer is written.  Missing, and false (see below): longer
lines. -/
theorem C67_within_buffer_partial (junk : Mem) (ls : List Str) (h : ∀ l ∈ ls, l.length < 131072) :
    readComments ⟨junk, 0, 0⟩ ls ≠ none := by
  have : ∀ (c : Comments), c.pos ≤ c.size → readComments c ls ≠ none := by
    induction ls with
    | nil => intro c _; simp [readComments]
    | cons l ls ih =>
      intro c hc
      have hl := h l (by simp)
      have : ∃ c', readComment c l = some c' := by
        unfold readComment
        rw [if_pos (by unfold newSize chunk; split <;> omega)]
        exact ⟨_, rfl⟩
      obtain ⟨c', hc'⟩ := this
      obtain ⟨-, -, h3, -⟩ := readComment_frame hc'
      simp only [readComments, hc', Option.bind_some]
      exact ih (fun x hx => h x (List.mem_cons_of_mem _ hx)) c' (by omega)
  exact this _ (Nat.le_refl _)

/-- The negation: a first comment of 128 KiB or more is written past the end of the buffer. -/
theorem C67_overflow (junk : Mem) (l : Str) (ls : List Str) (h : 131072 ≤ l.length) :
    readComments ⟨junk, 0, 0⟩ (l :: ls) = none := by
  have : readComment ⟨junk, 0, 0⟩ l = none := by
    unfold readComment
    rw [if_neg (by unfold newSize chunk; simp only; split <;> omega)]
  simp [readComments, this]

example : ∃ l : Str, chunk ≤ l.length := ⟨List.replicate chunk 97, by simp⟩

/-! ### Further concrete cases -/

example := C49_all_once_partial demoQ [demoE 10 true, demoE 11 true, demoE 1 false] (by decide)
example : loop demoQ ([demoE 1 true] ++ demoE 10 false :: [demoE 11 true]) none = [] :=
  C49_first_failure_ends demoQ _ _ _ (by decide) (by decide) rfl
example := C49_failure_repeats demoQ (demoE 10 true) [demoE 11 true] [demoE 13 true] (demoE 12 false) (by decide) rfl (by decide) rfl
example := C64_selected_partial { demoQ with wildcard := some [42], userWildcard := some [97], targetUid := 1000 }
  { demoE 10 true with uid := 1000, user := some [97] } (by decide)
example := C64_root_always { demoQ with userWildcard := some [97], fnmatch := fun _ _ => false } (demoE 10 true) rfl rfl
example := C64_nameless_always { demoQ with userWildcard := some [97], fnmatch := fun _ _ => false }
  { demoE 10 true with uid := 4711 } rfl rfl
/-- "BSC#12, CVE-1-2\n" -/
example := C65_labels_shown _ _ (.label [66, 83, 67, 35, 49, 50] 44 _ _ (.bsc [66, 83, 67, 35] [49, 50] (by decide) (by decide)) (by decide) (by decide)
    (.plain 32 _ _ (by decide) (by decide) (by decide) (by decide)
      (.label ([67, 86, 69, 45] ++ [49] ++ [45] ++ [50]) 10 _ _ (.cve _ _ _ (by decide) (by decide) (by decide)) (by decide) (by decide) .nil)))
example : ∃ c, readComments ⟨fun _ => 0, 0, 0⟩ [[33, 97, 10]] = some c ∧ embedded c.mem c.size = [97, 10] :=
  ⟨_, rfl, C66_one_comment_partial _ [33, 97, 10] _ (by decide) (by decide) rfl rfl⟩
example : ∃ c, readComments ⟨fun _ => 0, 0, 0⟩ [[33, 97, 10], [33, 98, 10]] = some c ∧ embedded c.mem 100 = [97, 10] :=
  ⟨_, rfl, C66_only_first_comment _ [33, 97, 10] [[33, 98, 10]] _ (by decide) (by decide) rfl rfl 100 (by decide)⟩
example : ∃ c, readComments ⟨fun _ => 200, 0, 0⟩ [[33, 97, 10]] = some c ∧ c.mem 2 = 200 ∧ c.mem 3 = 0 :=
  ⟨_, rfl, C66_heap_byte_embedded _ [33, 97, 10] _ (by decide) rfl⟩
example := C67_within_buffer_partial (fun _ => 200) [[33, 97, 10], [33, 98, 10]] (by decide)
example := C67_overflow (fun _ => 200) (List.replicate chunk 97) [[33, 98, 10]] (by rw [List.length_replicate]; decide)

/-- A queue of two elements: the producer puts in what it finds and the mark of the end, the consumer takes both out. -/
example : ∃ s : PcQueue.St (Option Nat), PcQueue.Reach (PcQueue.init 2 fun _ => none) s
    ∧ seen s.out = loop demoQ [demoE 1 true, demoE 10 true] none ∧ s.out = [some 10, none] := by
  have f := PcQueue.Reach.refl (s := PcQueue.init 2 fun _ => (none : Option Nat))
  have f := f.tail (.pWait _ (some 10) rfl (by decide))
  have f := f.tail (.pStore _ (some 10) rfl)
  have f := f.tail (.pInc _ rfl)
  have f := f.tail (.pWrap _ rfl)
  have f := f.tail (.pPost _ rfl)
  have f := f.tail (.cWait _ rfl (by decide))
  have f := f.tail (.cFetch _ rfl)
  have f := f.tail (.pWait _ none rfl (by decide))
  have f := f.tail (.pStore _ none rfl)
  have f := f.tail (.cInc _ _ rfl)
  have f := f.tail (.cWrap _ _ rfl)
  have f := f.tail (.cPost _ _ rfl)
  have f := f.tail (.pInc _ rfl)
  have f := f.tail (.pWrap _ rfl)
  have f := f.tail (.pPost _ rfl)
  have f := f.tail (.cWait _ rfl (by decide))
  have f := f.tail (.cFetch _ rfl)
  obtain ⟨s, f, ha, ho⟩ : ∃ s : PcQueue.St (Option Nat), PcQueue.Reach (PcQueue.init 2 fun _ => none) s
    ∧ s.acc = [some 10, none] ∧ s.out = [some 10, none] := ⟨_, f, rfl, rfl⟩
  exact ⟨s, f, C49_thread_same demoQ [demoE 1 true, demoE 10 true] 2 (by decide) _ s f (by rw [ha]; decide) (by rw [ho]; decide), ho⟩

/-- The first process fails, and the consumer, which takes the answer for the end, takes nothing out any more. -/
example : ∃ s : PcQueue.St (Option Nat), PcQueue.Reach (PcQueue.init 1 fun _ => none) s ∧ s.out = [none]
    ∧ s.acc ≠ gen demoQ [demoE 10 false, demoE 11 true, demoE 12 true] none := by
  have f := PcQueue.Reach.refl (s := PcQueue.init 1 fun _ => (none : Option Nat))
  have f := f.tail (.pWait _ none rfl (by decide))
  have f := f.tail (.pStore _ none rfl)
  have f := f.tail (.pInc _ rfl)
  have f := f.tail (.pWrap _ rfl)
  have f := f.tail (.pPost _ rfl)
  have f := f.tail (.cWait _ rfl (by decide))
  have f := f.tail (.cFetch _ rfl)
  exact ⟨_, f, rfl, C49_first_failure_hangs demoQ _ 1 (by decide) _ _ f rfl (by decide)⟩

end Verif.Listing
