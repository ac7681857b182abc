import Verif.Ppc.Machine

namespace Verif.Ppc

/-! What each part of the trampoline does. -/

theorem seg1_spec (E : Env) (f : Int) (s : St) (hs : f - 8 < s.r 1 - 16 ∨ s.r 1 ≤ f - 8) :
    (run (seg1 E f) s).r 1 = s.r 1 - 88 ∧ (run (seg1 E f) s).ctr = s.mem (f - 8)
      ∧ (∀ i, i = 0 ∨ i = 4 ∨ (7 ≤ i ∧ i ≠ 12) → (run (seg1 E f) s).r i = s.r i)
      ∧ (run (seg1 E f) s).mem (s.r 1 - 8) = s.r 5 ∧ (run (seg1 E f) s).mem (s.r 1 - 16) = s.r 6
      ∧ (run (seg1 E f) s).mem (s.r 1 - 24) = s.r 2 ∧ (run (seg1 E f) s).mem (s.r 1 - 32) = s.r 3
      ∧ (run (seg1 E f) s).mem (s.r 1 - 48) = s.lr
      ∧ (∀ a, a < s.r 1 - 48 ∨ s.r 1 ≤ a → (run (seg1 E f) s).mem a = s.mem a) := by
  refine ⟨?_, ?_, ?_, ?_, ?_, ?_, ?_, ?_, ?_⟩
  · simp [run, seg1, step, St.set, St.store]; omega
  · have h1 : ¬ (f - 12 + 4 = s.r 1 + -16) := by omega
    have h2 : ¬ (f - 12 + 4 = s.r 1 + -8) := by omega
    simp [run, seg1, step, St.set, St.store, h1, h2]
    congr 1; omega
  · intro i hi
    have : i ≠ 1 ∧ i ≠ 2 ∧ i ≠ 3 ∧ i ≠ 5 ∧ i ≠ 6 ∧ i ≠ 12 := by omega
    simp [run, seg1, step, St.set, St.store, this]
  · simp [run, seg1, step, St.set, St.store]; omega
  · simp [run, seg1, step, St.set, St.store]; omega
  · simp [run, seg1, step, St.set, St.store]; omega
  · simp [run, seg1, step, St.set, St.store]; omega
  · simp [run, seg1, step, St.set, St.store]; omega
  · intro a ha
    have : a ≠ s.r 1 + -8 ∧ a ≠ s.r 1 + -16 ∧ a ≠ s.r 1 + -24 ∧ a ≠ s.r 1 + -32 ∧ a ≠ s.r 1 + -40 ∧ a ≠ s.r 1 + -48 := by
      omega
    simp [run, seg1, step, St.set, St.store, this]

theorem seg2_spec (s : St) :
    (run seg2 s).mem = s.mem ∧ (run seg2 s).ctr = s.ctr ∧ (run seg2 s).lr = s.lr
      ∧ (run seg2 s).r 6 = s.mem (s.r 3) ∧ (run seg2 s).r 5 = s.mem (s.r 3 + 8)
      ∧ (∀ i, i ≠ 5 → i ≠ 6 → (run seg2 s).r i = s.r i) := by
  refine ⟨?_, ?_, ?_, ?_, ?_, ?_⟩
  all_goals try simp [run, seg2, step, St.set]
  intro i h1 h2
  simp [h1, h2]

theorem expandPre_spec (s : St) :
    (run expandPre s).r 1 = s.r 1 - 104
      ∧ (∀ i, i ≠ 1 → i ≠ 4 → (run expandPre s).r i = s.r i)
      ∧ (run expandPre s).mem (s.r 1 - 8) = s.r 4 ∧ (run expandPre s).mem (s.r 1 - 16) = s.r 7
      ∧ (run expandPre s).mem (s.r 1 - 24) = s.r 8 ∧ (run expandPre s).mem (s.r 1 - 32) = s.r 9
      ∧ (run expandPre s).mem (s.r 1 - 40) = s.r 10 ∧ (run expandPre s).mem (s.r 1 - 48) = s.r 11
      ∧ (run expandPre s).mem (s.r 1 - 56) = s.ctr
      ∧ (∀ a, a < s.r 1 - 64 ∨ s.r 1 ≤ a → (run expandPre s).mem a = s.mem a) := by
  refine ⟨?_, ?_, ?_, ?_, ?_, ?_, ?_, ?_, ?_, ?_⟩
  · simp [run, expandPre, step, St.set, St.store]; omega
  · intro i h1 h2; simp [run, expandPre, step, St.set, St.store, h1, h2]
  · simp [run, expandPre, step, St.set, St.store]; omega
  · simp [run, expandPre, step, St.set, St.store]; omega
  · simp [run, expandPre, step, St.set, St.store]; omega
  · simp [run, expandPre, step, St.set, St.store]; omega
  · simp [run, expandPre, step, St.set, St.store]; omega
  · simp [run, expandPre, step, St.set, St.store]; omega
  · simp [run, expandPre, step, St.set, St.store]; omega
  · intro a ha
    have : a ≠ s.r 1 + -8 ∧ a ≠ s.r 1 + -16 ∧ a ≠ s.r 1 + -24 ∧ a ≠ s.r 1 + -32 ∧ a ≠ s.r 1 + -40 ∧ a ≠ s.r 1 + -48
        ∧ a ≠ s.r 1 + -56 ∧ a ≠ s.r 1 + -64 := by omega
    simp [run, expandPre, step, St.set, St.store, this]

theorem expandPost_spec (s : St) :
    (run expandPost s).r 1 = s.r 1 + 104 ∧ (run expandPost s).r 3 = s.r 3 ∧ (run expandPost s).mem = s.mem
      ∧ (∀ i, 13 ≤ i → (run expandPost s).r i = s.r i)
      ∧ (run expandPost s).r 4 = s.mem (s.r 1 + 96) ∧ (run expandPost s).r 7 = s.mem (s.r 1 + 88)
      ∧ (run expandPost s).r 8 = s.mem (s.r 1 + 80) ∧ (run expandPost s).r 9 = s.mem (s.r 1 + 72)
      ∧ (run expandPost s).r 10 = s.mem (s.r 1 + 64) ∧ (run expandPost s).r 11 = s.mem (s.r 1 + 56)
      ∧ (run expandPost s).ctr = s.mem (s.r 1 + 48) := by
  refine ⟨?_, ?_, ?_, ?_, ?_, ?_, ?_, ?_, ?_, ?_, ?_⟩
  all_goals try (simp [run, expandPost, step, St.set, Int.add_assoc]; done)
  intro i hi
  have : i ≠ 1 ∧ i ≠ 4 ∧ i ≠ 7 ∧ i ≠ 8 ∧ i ≠ 9 ∧ i ≠ 10 ∧ i ≠ 11 := by omega
  simp [run, expandPost, step, St.set, this]

/-- The slot that is written lies apart from what is read between. -/
theorem cont_spec (s : St) (U P : Int) (hU : s.r 3 = U) (hP : s.mem (U + 16) = P)
    (h1 : Apart (P + s.mem (U + 8)) 16 U 24) (h2 : Apart (P + s.mem (U + 8)) 16 (s.r 1 + 40) 48)
    (h3 : Apart U 24 (s.r 1 + 40) 48) :
    (run cont s).r 1 = s.r 1 + 88 ∧ (run cont s).ctr = s.ctr ∧ (run cont s).lr = s.mem (s.r 1 + 40)
      ∧ (run cont s).r 12 = s.ctr ∧ (run cont s).r 5 = s.mem (s.r 1 + 80) ∧ (run cont s).r 6 = s.mem (s.r 1 + 72)
      ∧ (run cont s).r 3 = s.mem (s.r 1 + 56)
      ∧ (∀ i, i = 4 ∨ (7 ≤ i ∧ i ≠ 12) → (run cont s).r i = s.r i)
      ∧ (run cont s).mem (U + 8) = s.mem (U + 8) + 16
      ∧ (run cont s).mem (P + s.mem (U + 8)) = s.mem (s.r 1 + 64)
      ∧ (run cont s).mem (P + s.mem (U + 8) + 8) = s.mem (s.r 1 + 40)
      ∧ (∀ a, a ≠ U + 8 → a ≠ P + s.mem (U + 8) → a ≠ P + s.mem (U + 8) + 8 → (run cont s).mem a = s.mem a) := by
  unfold Apart at h1 h2 h3
  subst hU
  have mem_eq : ∀ a, (run cont s).mem a = if a = P + s.mem (s.r 3 + 8) + 8 then s.mem (s.r 1 + 40)
      else if a = P + s.mem (s.r 3 + 8) then s.mem (s.r 1 + 64)
      else if a = s.r 3 + 8 then s.mem (s.r 3 + 8) + 16 else s.mem a := by
    intro a
    have e1 : ¬ s.r 3 + 16 = s.r 3 + 8 := by omega
    have e2 : ¬ s.r 1 + 88 + -48 = s.r 3 + 8 := by omega
    have e3 : ¬ s.r 1 + 88 + -24 = s.r 3 + 8 := by omega
    have e4 : s.r 1 + 88 + -48 = s.r 1 + 40 := by omega
    have e5 : s.r 1 + 88 + -24 = s.r 1 + 64 := by omega
    have e6 : P + (s.mem (s.r 3 + 8) + 16) + -8 = P + s.mem (s.r 3 + 8) + 8 := by omega
    have e7 : P + (s.mem (s.r 3 + 8) + 16) + -16 = P + s.mem (s.r 3 + 8) := by omega
    rw [e4] at e2; rw [e5] at e3
    simp [run, cont, step, St.set, St.store, e1, hP, e4, e5, e2, e3, e6, e7]
  have key : ∀ c, 40 ≤ c → c < 88 → (run cont s).mem (s.r 1 + c) = s.mem (s.r 1 + c) := by
    intro c hc1 hc2
    rw [mem_eq, if_neg (by omega), if_neg (by omega), if_neg (by omega)]
  have r5 : (run cont s).r 5 = (run cont s).mem (s.r 1 + 80) := by
    simp [run, cont, step, St.set, St.store, Int.add_assoc]
  have r6 : (run cont s).r 6 = (run cont s).mem (s.r 1 + 72) := by
    simp [run, cont, step, St.set, St.store, Int.add_assoc]
  have r3 : (run cont s).r 3 = (run cont s).mem (s.r 1 + 56) := by
    simp [run, cont, step, St.set, St.store, Int.add_assoc]
  refine ⟨?_, ?_, ?_, ?_, ?_, ?_, ?_, ?_, ?_, ?_, ?_, ?_⟩
  · simp [run, cont, step, St.set, St.store]
  · simp [run, cont, step, St.set, St.store]
  · have e4 : s.r 1 + 88 + -48 = s.r 1 + 40 := by omega
    have e2 : ¬ s.r 1 + 40 = s.r 3 + 8 := by omega
    simp [run, cont, step, St.set, St.store, e4, e2]
  · simp [run, cont, step, St.set, St.store]
  · rw [r5, key _ (by omega) (by omega)]
  · rw [r6, key _ (by omega) (by omega)]
  · rw [r3, key _ (by omega) (by omega)]
  · intro i hi
    have : i ≠ 1 ∧ i ≠ 2 ∧ i ≠ 3 ∧ i ≠ 5 ∧ i ≠ 6 ∧ i ≠ 12 := by omega
    simp [run, cont, step, St.set, St.store, this]
  · rw [mem_eq, if_neg (by omega), if_neg (by omega), if_pos rfl]
  · rw [mem_eq, if_neg (by omega), if_pos rfl]
  · rw [mem_eq, if_pos rfl]
  · intro a h4 h5 h6
    rw [mem_eq, if_neg h6, if_neg h5, if_neg h4]

theorem leave1_spec (E : Env) (s : St) :
    (run (leave1 E) s).r 1 = s.r 1 - 56
      ∧ (∀ i, i ≠ 1 → i ≠ 2 → i ≠ 3 → i ≠ 12 → (run (leave1 E) s).r i = s.r i)
      ∧ (run (leave1 E) s).mem (s.r 1 - 8) = s.r 3 ∧ (run (leave1 E) s).mem (s.r 1 - 16) = s.r 12
      ∧ (∀ a, a < s.r 1 - 16 ∨ s.r 1 ≤ a → (run (leave1 E) s).mem a = s.mem a) := by
  refine ⟨?_, ?_, ?_, ?_, ?_⟩
  · simp [run, leave1, step, St.set, St.store]; omega
  · intro i h1 h2 h3 h4
    simp [run, leave1, step, St.set, St.store, h1, h2, h3, h4]
  · simp [run, leave1, step, St.set, St.store]; omega
  · simp [run, leave1, step, St.set, St.store]; omega
  · intro a ha
    have : a ≠ s.r 1 + -8 ∧ a ≠ s.r 1 + -16 := by omega
    simp [run, leave1, step, St.set, St.store, this]

theorem leave2_spec (s : St) :
    (run leave2 s).r 6 = s.mem (s.r 3 + 8) - 16 ∧ (∀ i, i ≠ 6 → (run leave2 s).r i = s.r i)
      ∧ (run leave2 s).mem (s.r 3 + 8) = s.mem (s.r 3 + 8) - 16
      ∧ (∀ a, a ≠ s.r 3 + 8 → (run leave2 s).mem a = s.mem a) ∧ (run leave2 s).ctr = s.ctr := by
  refine ⟨?_, ?_, ?_, ?_, ?_⟩
  · simp [run, leave2, step, St.set, St.store]; omega
  · intro i hi; simp [run, leave2, step, St.set, St.store, hi]
  · simp [run, leave2, step, St.set, St.store]; omega
  · intro a ha; simp [run, leave2, step, St.set, St.store, ha]
  · simp [run, leave2, step, St.set, St.store]

theorem leave3_spec (s : St) :
    (run leave3 s).r 1 = s.r 1 + 56 ∧ (run leave3 s).mem = s.mem
      ∧ (run leave3 s).r 2 = s.mem (s.mem (s.r 3 + 16) + s.r 6)
      ∧ (run leave3 s).lr = s.mem (s.mem (s.r 3 + 16) + s.r 6 + 8)
      ∧ (run leave3 s).r 3 = s.mem (s.r 1 + 48) ∧ (run leave3 s).r 12 = s.mem (s.r 1 + 40)
      ∧ (∀ i, i = 4 ∨ i = 6 ∨ i = 7 ∨ (9 ≤ i ∧ i ≠ 12) → (run leave3 s).r i = s.r i) := by
  refine ⟨?_, ?_, ?_, ?_, ?_, ?_, ?_⟩
  all_goals try (simp [run, leave3, step, St.set, Int.add_assoc]; done)
  intro i hi
  have : i ≠ 1 ∧ i ≠ 2 ∧ i ≠ 3 ∧ i ≠ 5 ∧ i ≠ 8 ∧ i ≠ 12 := by omega
  simp [run, leave3, step, St.set, this]

/-! ### The shadow stack as a list -/

/-- `ulp_stack` is well-formed in a memory. -/
structure Ok (E : Env) (m : Int → Int) : Prop where
  ulp : Apart E.ulp 24 E.lo (E.hi - E.lo)
  lohi : E.lo ≤ E.hi
  pg : 0 < E.pg ∧ E.pg % 16 = 0
  real : 0 ≤ m E.ulp ∧ m E.ulp % 16 = 0
  used : 0 ≤ m (E.ulp + 8) ∧ m (E.ulp + 8) ≤ m E.ulp ∧ m (E.ulp + 8) % 16 = 0
  none : m (E.ulp + 16) = 0 → m E.ulp = 0
  pos : 0 ≤ m (E.ulp + 16)
  bufStack : 0 < m E.ulp → Apart (m (E.ulp + 16)) (m E.ulp) E.lo (E.hi - E.lo)
  bufUlp : 0 < m E.ulp → Apart (m (E.ulp + 16)) (m E.ulp) E.ulp 24

/-- The shadow stack holds `l`: pairs of TOC pointer and return address, the newest last. -/
structure Holds (E : Env) (m : Int → Int) (l : List (Int × Int)) : Prop where
  used : m (E.ulp + 8) = 16 * l.length
  entry : ∀ (k : Nat) (e : Int × Int), l[k]? = some e →
    m (m (E.ulp + 16) + 16 * k) = e.1 ∧ m (m (E.ulp + 16) + 16 * k + 8) = e.2

/-- Only the `ulp_stack` and its buffer matter. -/
theorem ok_holds_congr {E : Env} {m m' : Int → Int} {l} (h : Ok E m) (hl : Holds E m l)
    (h1 : ∀ a, E.ulp ≤ a → a < E.ulp + 24 → m' a = m a)
    (h2 : ∀ a, m (E.ulp + 16) ≤ a → a < m (E.ulp + 16) + m E.ulp → m' a = m a) : Ok E m' ∧ Holds E m' l := by
  have e0 := h1 E.ulp (by omega) (by omega)
  have e8 := h1 (E.ulp + 8) (by omega) (by omega)
  have e16 := h1 (E.ulp + 16) (by omega) (by omega)
  refine ⟨⟨h.ulp, h.lohi, h.pg, by rw [e0]; exact h.real, by rw [e0, e8]; exact h.used, by rw [e0, e16]; exact h.none,
    by rw [e16]; exact h.pos, by rw [e0, e16]; exact h.bufStack, by rw [e0, e16]; exact h.bufUlp⟩, ?_⟩
  refine ⟨by rw [e8]; exact hl.used, ?_⟩
  intro k e hk
  have hk' : k < l.length := (List.getElem?_eq_some_iff.mp hk).1
  have hu := hl.used
  have := h.used
  rw [e16, h2 _ (by omega) (by omega), h2 _ (by omega) (by omega)]
  exact hl.entry k e hk

theorem holds_push {E : Env} {m m' : Int → Int} {l} {t a : Int} (hl : Holds E m l)
    (hu : m' (E.ulp + 8) = m (E.ulp + 8) + 16) (hp : m' (E.ulp + 16) = m (E.ulp + 16))
    (h1 : m' (m (E.ulp + 16) + m (E.ulp + 8)) = t) (h2 : m' (m (E.ulp + 16) + m (E.ulp + 8) + 8) = a)
    (h3 : ∀ b, m (E.ulp + 16) ≤ b → b < m (E.ulp + 16) + m (E.ulp + 8) → m' b = m b) : Holds E m' (l ++ [(t, a)]) := by
  have hu0 := hl.used
  refine ⟨by rw [hu, hu0]; simp; omega, ?_⟩
  intro k e hk
  rw [hp]
  by_cases hk' : k < l.length
  · rw [List.getElem?_append_left hk'] at hk
    rw [h3 _ (by omega) (by omega), h3 _ (by omega) (by omega)]
    exact hl.entry k e hk
  · have hlen : k < l.length + 1 := by simpa using (List.getElem?_eq_some_iff.mp hk).1
    have : k = l.length := by omega
    subst this
    simp at hk
    subst hk
    rw [← hu0]
    exact ⟨h1, h2⟩

/-- What the code before the push leaves. -/
structure Saved (E : Env) (s t : St) : Prop where
  sp : t.r 1 = s.r 1 - 88
  r5 : t.mem (s.r 1 - 8) = s.r 5
  r6 : t.mem (s.r 1 - 16) = s.r 6
  r2 : t.mem (s.r 1 - 24) = s.r 2
  r3 : t.mem (s.r 1 - 32) = s.r 3
  lr : t.mem (s.r 1 - 48) = s.lr
  nonvol : ∀ i, 13 ≤ i → t.r i = s.r i
  ret : t.r 3 = E.ulp

/-- The registers that the trampoline itself does not save for `__tls_get_addr`. -/
structure Kept (s t : St) (ctr : Int) : Prop where
  r4 : t.r 4 = s.r 4
  args : ∀ i, 7 ≤ i → i ≤ 11 → t.r i = s.r i
  ctr : t.ctr = ctr

/-- Up to the comparison. -/
theorem enter_a {E : Env} {f : Int} {s s1 : St} {l} (hr : Room E f s) (hok : Ok E s.mem) (hl : Holds E s.mem l)
    (ht : TlsCall E (run (seg1 E f) s) s1) :
    Saved E s (run seg2 s1) ∧ Ok E (run seg2 s1).mem ∧ Holds E (run seg2 s1).mem l
      ∧ (run seg2 s1).r 6 = (run seg2 s1).mem E.ulp ∧ (run seg2 s1).r 5 = (run seg2 s1).mem (E.ulp + 8)
      ∧ (∀ a, a < E.lo ∨ s.r 1 ≤ a → (run seg2 s1).mem a = s.mem a)
      ∧ (Gentle (run (seg1 E f) s) s1 → Kept s (run seg2 s1) (s.mem (f - 8))) := by
  have hrlo := hr.lo
  have hrhi := hr.hi
  have hsite := hr.site
  obtain ⟨a1, a2, a3, a4, a5, a6, a7, a8, a9⟩ := seg1_spec E f s (by omega)
  obtain ⟨b1, b2, b3, b4, b5, b6⟩ := seg2_spec s1
  have hm : ∀ a, a < E.lo ∨ s.r 1 - 56 ≤ a → s1.mem a = (run (seg1 E f) s).mem a := fun a ha =>
    ht.mem a (by rw [a1]; omega)
  have hframe : ∀ a, a < E.lo ∨ s.r 1 ≤ a → s1.mem a = s.mem a := by
    intro a ha
    rw [hm a (by omega), a9 a (by omega)]
  have hulp := hok.ulp
  unfold Apart at hulp
  obtain ⟨k1, k2⟩ := ok_holds_congr (m' := s1.mem) hok hl (fun a h1 h2 => hframe a (by omega)) (by
    intro a h1 h2
    have := hok.bufStack (by omega)
    unfold Apart at this
    exact hframe a (by omega))
  refine ⟨⟨?_, ?_, ?_, ?_, ?_, ?_, ?_, ?_⟩, by rw [b1]; exact k1, by rw [b1]; exact k2, ?_, ?_, ?_, ?_⟩
  · rw [b6 1 (by omega) (by omega), ht.sp, a1]
  · rw [b1, hm _ (by omega), a4]
  · rw [b1, hm _ (by omega), a5]
  · rw [b1, hm _ (by omega), a6]
  · rw [b1, hm _ (by omega), a7]
  · rw [b1, hm _ (by omega), a8]
  · intro i hi
    rw [b6 i (by omega) (by omega), ht.nonvol i hi, a3 i (by omega)]
  · rw [b6 3 (by omega) (by omega), ht.ret]
  · rw [b4, ht.ret, b1]
  · rw [b5, ht.ret, b1]
  · rw [b1]; exact hframe
  · intro hg
    refine ⟨?_, ?_, ?_⟩
    · rw [b6 4 (by omega) (by omega), hg.r4, a3 4 (by omega)]
    · intro i h1 h2
      rw [b6 i (by omega) (by omega), hg.args i h1 h2, a3 i (by omega)]
    · rw [b2, hg.ctr, a2]

/-- The growth of the shadow stack. -/
theorem enter_b {E : Env} {f : Int} {s t s2 : St} {l} {B ctr : Int} (hr : Room E f s) (hs : Saved E s t) (hok : Ok E t.mem)
    (hl : Holds E t.mem l) (hfull : t.mem E.ulp ≤ t.mem (E.ulp + 8)) (hh : HelperCall E (run expandPre t) s2 B) :
    Saved E s (run expandPost s2) ∧ Ok E (run expandPost s2).mem ∧ Holds E (run expandPost s2).mem l
      ∧ (run expandPost s2).mem (E.ulp + 8) < (run expandPost s2).mem E.ulp
      ∧ (∀ a, a < E.lo ∨ s.r 1 ≤ a → ¬ (E.ulp ≤ a ∧ a < E.ulp + 24) →
          ¬ (B ≤ a ∧ a < B + (run expandPost s2).mem E.ulp) → (run expandPost s2).mem a = t.mem a)
      ∧ (run expandPost s2).mem (E.ulp + 16) = B
      ∧ (Kept s t ctr → Kept s (run expandPost s2) ctr) := by
  have hrlo := hr.lo
  have hrhi := hr.hi
  obtain ⟨a1, a2, a3, a4, a5, a6, a7, a8, a9, a10⟩ := expandPre_spec t
  obtain ⟨b1, b2, b3, b4, b5, b6, b7, b8, b9, b10, b11⟩ := expandPost_spec s2
  have hsp := hs.sp
  have hulp := hok.ulp
  have hpg := hok.pg
  have hreal := hok.real
  have hused := hok.used
  -- the helper sees the `ulp_stack` and the buffer as they are
  have hpre : ∀ a, a < E.lo ∨ s.r 1 - 88 ≤ a → (run expandPre t).mem a = t.mem a := fun a ha => a10 a (by omega)
  have m0 : (run expandPre t).mem E.ulp = t.mem E.ulp := hpre _ (by unfold Apart at hulp; omega)
  have m8 : (run expandPre t).mem (E.ulp + 8) = t.mem (E.ulp + 8) := hpre _ (by unfold Apart at hulp; omega)
  have m16 : (run expandPre t).mem (E.ulp + 16) = t.mem (E.ulp + 16) := hpre _ (by unfold Apart at hulp; omega)
  have hfr := hh.fresh
  have fpos := hfr.pos
  have fst := hfr.stack
  have ful := hfr.ulp
  have fold := hfr.old
  rw [m0] at fst ful fold
  rw [m16] at fold
  have hmem : ∀ a, a < E.lo ∨ s.r 1 - 160 ≤ a → s2.mem a = helperMem E B (run expandPre t).mem a := fun a ha =>
    hh.mem a (by rw [a1]; omega)
  unfold Apart at hulp fst ful fold
  have n0 : s2.mem E.ulp = (t.mem E.ulp + E.pg) * 2 := by
    rw [hmem _ (by omega)]; simp [helperMem, m0]
  have n8 : s2.mem (E.ulp + 8) = t.mem (E.ulp + 8) := by
    rw [hmem _ (by omega)]
    simp only [helperMem]
    rw [if_neg (by omega), if_neg (by omega), if_neg (by rw [m0]; omega), m8]
  have n16 : s2.mem (E.ulp + 16) = B := by
    rw [hmem _ (by omega)]
    simp only [helperMem]
    rw [if_neg (by omega), if_pos trivial]
  -- memory on the stack
  have nst : ∀ a, s.r 1 - 160 ≤ a → a < E.hi → s2.mem a = (run expandPre t).mem a := by
    intro a h1 h2
    rw [hmem _ (by omega)]
    simp only [helperMem]
    rw [if_neg (by omega), if_neg (by omega), if_neg (by rw [m0]; omega)]
  have nst2 : ∀ a, s.r 1 - 88 ≤ a → a < s.r 1 → s2.mem a = t.mem a := by
    intro a h1 h2
    rw [nst a (by omega) (by omega), hpre a (by omega)]
  -- the copied buffer
  have ncopy : ∀ k, 0 ≤ k → k < t.mem E.ulp → s2.mem (B + k) = t.mem (t.mem (E.ulp + 16) + k) := by
    intro k h1 h2
    have hne : t.mem (E.ulp + 16) ≠ 0 := fun h => by have := hok.none h; omega
    have hb := hok.bufStack (by omega)
    unfold Apart at hb
    rw [hmem _ (by omega)]
    simp only [helperMem]
    rw [if_neg (by omega), if_neg (by omega), if_pos (by rw [m0, m16]; exact ⟨hne, by omega, by omega⟩), m16]
    rw [hpre _ (by omega)]
    congr 1; omega
  refine ⟨⟨?_, ?_, ?_, ?_, ?_, ?_, ?_, ?_⟩, ?_, ?_, ?_, ?_, by rw [b3, n16], ?_⟩
  · rw [b1, hh.sp, a1, hsp]; omega
  · rw [b3, nst2 _ (by omega) (by omega), hs.r5]
  · rw [b3, nst2 _ (by omega) (by omega), hs.r6]
  · rw [b3, nst2 _ (by omega) (by omega), hs.r2]
  · rw [b3, nst2 _ (by omega) (by omega), hs.r3]
  · rw [b3, nst2 _ (by omega) (by omega), hs.lr]
  · intro i hi
    rw [b4 i hi, hh.nonvol i hi, a2 i (by omega) (by omega), hs.nonvol i hi]
  · rw [b2, hh.ret]
  · rw [b3]
    refine ⟨hok.ulp, hok.lohi, hok.pg, ?_, ?_, ?_, ?_, ?_, ?_⟩
    · rw [n0]; omega
    · rw [n0, n8]; omega
    · rw [n16]; omega
    · rw [n16]; omega
    · rw [n16, n0]; intro _; unfold Apart; omega
    · rw [n16, n0]; intro _; unfold Apart; omega
  · rw [b3]
    refine ⟨by rw [n8]; exact hl.used, ?_⟩
    intro k e hk
    have hk' : k < l.length := (List.getElem?_eq_some_iff.mp hk).1
    have hu := hl.used
    have e1 := ncopy (16 * k) (by omega) (by omega)
    have e2 := ncopy (16 * k + 8) (by omega) (by omega)
    rw [n16, e1, Int.add_assoc, e2, ← Int.add_assoc]
    exact hl.entry k e hk
  · rw [b3, n0, n8]; omega
  · intro a h1 h2 h3
    rw [b3, n0] at h3
    rw [b3, hmem a (by omega)]
    simp only [helperMem]
    rw [if_neg (by omega), if_neg (by omega), if_neg (by rw [m0]; omega), hpre a (by omega)]
  · intro hk
    have e1 : s2.r 1 = s.r 1 - 192 := by rw [hh.sp, a1, hsp]; omega
    refine ⟨?_, ?_, ?_⟩
    · rw [b5, e1, nst _ (by omega) (by omega), show s.r 1 - 192 + 96 = t.r 1 - 8 by omega, a3, hk.r4]
    · intro i h1 h2
      have : i = 7 ∨ i = 8 ∨ i = 9 ∨ i = 10 ∨ i = 11 := by omega
      rcases this with rfl | rfl | rfl | rfl | rfl
      · rw [b6, e1, nst _ (by omega) (by omega), show s.r 1 - 192 + 88 = t.r 1 - 16 by omega, a4, hk.args 7 h1 h2]
      · rw [b7, e1, nst _ (by omega) (by omega), show s.r 1 - 192 + 80 = t.r 1 - 24 by omega, a5, hk.args 8 h1 h2]
      · rw [b8, e1, nst _ (by omega) (by omega), show s.r 1 - 192 + 72 = t.r 1 - 32 by omega, a6, hk.args 9 h1 h2]
      · rw [b9, e1, nst _ (by omega) (by omega), show s.r 1 - 192 + 64 = t.r 1 - 40 by omega, a7, hk.args 10 h1 h2]
      · rw [b10, e1, nst _ (by omega) (by omega), show s.r 1 - 192 + 56 = t.r 1 - 48 by omega, a8, hk.args 11 h1 h2]
    · rw [b11, e1, nst _ (by omega) (by omega), show s.r 1 - 192 + 48 = t.r 1 - 56 by omega, a9, hk.ctr]

/-- What holds at `bctrl`. -/
structure Entered (E : Env) (l : List (Int × Int)) (s s' : St) : Prop where
  ok : Ok E s'.mem
  holds : Holds E s'.mem (l ++ [(s.r 2, s.lr)])
  sp : s'.r 1 = s.r 1
  r3 : s'.r 3 = s.r 3
  r5 : s'.r 5 = s.r 5
  r6 : s'.r 6 = s.r 6
  r12 : s'.r 12 = s'.ctr
  nonvol : ∀ i, 13 ≤ i → s'.r i = s.r i
  frame : ∀ a, a < E.lo ∨ s.r 1 ≤ a → ¬ (E.ulp ≤ a ∧ a < E.ulp + 24) →
    ¬ (s'.mem (E.ulp + 16) ≤ a ∧ a < s'.mem (E.ulp + 16) + s'.mem E.ulp) → s'.mem a = s.mem a

/-- The push. -/
theorem enter_c {E : Env} {f : Int} {s t : St} {l} {ctr : Int} (hr : Room E f s) (hs : Saved E s t) (hok : Ok E t.mem)
    (hl : Holds E t.mem l) (hfree : t.mem (E.ulp + 8) < t.mem E.ulp)
    (hframe : ∀ a, a < E.lo ∨ s.r 1 ≤ a → ¬ (E.ulp ≤ a ∧ a < E.ulp + 24) →
      ¬ (t.mem (E.ulp + 16) ≤ a ∧ a < t.mem (E.ulp + 16) + t.mem E.ulp) → t.mem a = s.mem a) :
    Entered E l s (run cont t) ∧ (Kept s t ctr → Kept s (run cont t) ctr)
      ∧ (run cont t).mem E.ulp = t.mem E.ulp ∧ (run cont t).mem (E.ulp + 16) = t.mem (E.ulp + 16) := by
  have hrlo := hr.lo
  have hrhi := hr.hi
  have hsp := hs.sp
  have hulp := hok.ulp
  have hreal := hok.real
  have hused := hok.used
  have hbs := hok.bufStack (by omega)
  have hbu := hok.bufUlp (by omega)
  unfold Apart at hulp hbs hbu
  obtain ⟨c1, c2, c3, c4, c5, c6, c7, c8, c9, c10, c11, c12⟩ := cont_spec t E.ulp (t.mem (E.ulp + 16)) hs.ret rfl
    (by unfold Apart; omega) (by unfold Apart; omega) (by unfold Apart; omega)
  have e0 : (run cont t).mem E.ulp = t.mem E.ulp := c12 _ (by omega) (by omega) (by omega)
  have e16 : (run cont t).mem (E.ulp + 16) = t.mem (E.ulp + 16) := c12 _ (by omega) (by omega) (by omega)
  refine ⟨⟨?_, ?_, ?_, ?_, ?_, ?_, by rw [c4, c2], ?_, ?_⟩, ?_, e0, e16⟩
  · refine ⟨hok.ulp, hok.lohi, hok.pg, by rw [e0]; exact hok.real, by rw [e0, c9]; omega, by rw [e0, e16]; exact hok.none,
      by rw [e16]; exact hok.pos, by rw [e0, e16]; exact hok.bufStack, by rw [e0, e16]; exact hok.bufUlp⟩
  · refine holds_push hl c9 e16 ?_ ?_ ?_
    · rw [c10, show t.r 1 + 64 = s.r 1 - 24 by omega, hs.r2]
    · rw [c11, show t.r 1 + 40 = s.r 1 - 48 by omega, hs.lr]
    · intro b h1 h2
      exact c12 b (by omega) (by omega) (by omega)
  · rw [c1]; omega
  · rw [c7, show t.r 1 + 56 = s.r 1 - 32 by omega, hs.r3]
  · rw [c5, show t.r 1 + 80 = s.r 1 - 8 by omega, hs.r5]
  · rw [c6, show t.r 1 + 72 = s.r 1 - 16 by omega, hs.r6]
  · intro i hi
    rw [c8 i (by omega), hs.nonvol i hi]
  · intro a h1 h2 h3
    rw [e0, e16] at h3
    rw [c12 a (by omega) (by omega) (by omega), hframe a h1 h2 h3]
  · intro hk
    refine ⟨by rw [c8 4 (by omega), hk.r4], ?_, by rw [c2, hk.ctr]⟩
    intro i h1 h2
    rw [c8 i (by omega), hk.args i h1 h2]

/-- Entering a livepatched function pushes its caller's TOC pointer and return address. -/
theorem enter_spec {E : Env} {tls : St → St → Prop} (htls : ∀ a b, tls a b → TlsCall E a b) {f : Int} {s s' : St} {l}
    (hr : Room E f s) (hok : Ok E s.mem) (hl : Holds E s.mem l) (he : Enter E tls f s s') :
    Entered E l s s' ∧ ((∀ a b, tls a b → Gentle a b) → Kept s s' (s.mem (f - 8))) := by
  obtain ⟨s1, ht, he⟩ := he
  obtain ⟨a1, a2, a3, a4, a5, a6, a7⟩ := enter_a hr hok hl (htls _ _ ht)
  by_cases hc : (run seg2 s1).r 6 ≤ (run seg2 s1).r 5
  · rw [if_pos hc] at he
    obtain ⟨s2, B, hh, rfl⟩ := he
    obtain ⟨b1, b2, b3, b4, b5, b6, b7⟩ := enter_b (ctr := s.mem (f - 8)) hr a1 a2 a3 (by rw [← a4, ← a5]; exact hc) hh
    obtain ⟨c1, c2, -, -⟩ := enter_c (ctr := s.mem (f - 8)) hr b1 b2 b3 b4 (by
      intro a h1 h2 h3
      rw [b6] at h3
      rw [b5 a h1 h2 h3, a6 a h1])
    exact ⟨c1, fun hg => c2 (b7 (a7 (hg _ _ ht)))⟩
  · rw [if_neg hc] at he
    subst he
    obtain ⟨c1, c2, -, -⟩ := enter_c (ctr := s.mem (f - 8)) hr a1 a2 a3 (by rw [← a4, ← a5]; omega)
      (fun a h1 _ _ => a6 a h1)
    exact ⟨c1, fun hg => c2 (a7 (hg _ _ ht))⟩

/-- What holds at `blr`. -/
structure Left (E : Env) (l : List (Int × Int)) (t a : Int) (s s' : St) : Prop where
  ok : Ok E s'.mem
  holds : Holds E s'.mem l
  toc : s'.r 2 = t
  lr : s'.lr = a
  sp : s'.r 1 = s.r 1
  r3 : s'.r 3 = s.r 3
  nonvol : ∀ i, 13 ≤ i → s'.r i = s.r i
  frame : ∀ a, a < E.lo ∨ s.r 1 ≤ a → a ≠ E.ulp + 8 → s'.mem a = s.mem a

/-- Returning from a livepatched function pops the newest entry. -/
theorem leave_spec {E : Env} {tls : St → St → Prop} (htls : ∀ a b, tls a b → TlsCall E a b) {f : Int} {s s' : St} {l}
    {t a : Int} (hr : Room E f s) (hok : Ok E s.mem) (hl : Holds E s.mem (l ++ [(t, a)])) (he : Leave E tls s s') :
    Left E l t a s s' ∧ ((∀ a b, tls a b → Gentle a b) → s'.r 4 = s.r 4) := by
  obtain ⟨s1, ht', rfl⟩ := he
  have ht := htls _ _ ht'
  have hrlo := hr.lo
  have hrhi := hr.hi
  have hulp := hok.ulp
  have hused := hok.used
  have hu := hl.used
  simp only [List.length_append, List.length_cons, List.length_nil] at hu
  have hbs := hok.bufStack (by omega)
  have hbu := hok.bufUlp (by omega)
  have hent := hl.entry l.length (t, a) (by simp)
  unfold Apart at hulp hbs hbu
  obtain ⟨a1, a2, a3, a4, a5⟩ := leave1_spec E s
  obtain ⟨b1, b2, b3, b4, -⟩ := leave2_spec s1
  obtain ⟨c1, c2, c3, c4, c5, c6, c7⟩ := leave3_spec (run leave2 s1)
  rw [ht.ret] at b1 b3 b4
  have hm : ∀ a, a < E.lo ∨ s.r 1 - 24 ≤ a → s1.mem a = (run (leave1 E) s).mem a := fun a ha =>
    ht.mem a (by rw [a1]; omega)
  have hframe : ∀ a, a < E.lo ∨ s.r 1 ≤ a → s1.mem a = s.mem a := by
    intro a ha
    rw [hm a (by omega), a5 a (by omega)]
  have s0 : s1.mem E.ulp = s.mem E.ulp := hframe _ (by omega)
  have s8 : s1.mem (E.ulp + 8) = s.mem (E.ulp + 8) := hframe _ (by omega)
  have s16 : s1.mem (E.ulp + 16) = s.mem (E.ulp + 16) := hframe _ (by omega)
  have f0 : (run leave2 s1).mem E.ulp = s.mem E.ulp := by rw [b4 _ (by omega), s0]
  have f8 : (run leave2 s1).mem (E.ulp + 8) = s.mem (E.ulp + 8) - 16 := by rw [b3, s8]
  have f16 : (run leave2 s1).mem (E.ulp + 16) = s.mem (E.ulp + 16) := by rw [b4 _ (by omega), s16]
  have fbuf : ∀ a, s.mem (E.ulp + 16) ≤ a → a < s.mem (E.ulp + 16) + s.mem E.ulp → (run leave2 s1).mem a = s.mem a := by
    intro a h1 h2
    rw [b4 _ (by omega), hframe _ (by omega)]
  have r3' : (run leave2 s1).r 3 = E.ulp := by rw [b2 3 (by omega), ht.ret]
  have r1' : (run leave2 s1).r 1 = s.r 1 - 56 := by rw [b2 1 (by omega), ht.sp, a1]
  refine ⟨⟨?_, ?_, ?_, ?_, ?_, ?_, ?_, ?_⟩, ?_⟩
  · rw [c2]
    refine ⟨hok.ulp, hok.lohi, hok.pg, by rw [f0]; exact hok.real, by rw [f0, f8]; omega, by rw [f0, f16]; exact hok.none,
      by rw [f16]; exact hok.pos, by rw [f0, f16]; exact hok.bufStack, by rw [f0, f16]; exact hok.bufUlp⟩
  · rw [c2]
    refine ⟨by rw [f8]; omega, ?_⟩
    intro k e hk
    have hk' : k < l.length := (List.getElem?_eq_some_iff.mp hk).1
    rw [f16, fbuf _ (by omega) (by omega), fbuf _ (by omega) (by omega)]
    exact hl.entry k e (by rw [List.getElem?_append_left hk']; exact hk)
  · rw [c3, r3', f16, b1, s8, fbuf _ (by omega) (by omega)]
    refine Eq.trans ?_ hent.1
    congr 1; omega
  · rw [c4, r3', f16, b1, s8, fbuf _ (by omega) (by omega)]
    refine Eq.trans ?_ hent.2
    congr 1; omega
  · rw [c1, r1']; omega
  · rw [c5, r1', b4 _ (by omega), hm _ (by omega), show s.r 1 - 56 + 48 = s.r 1 - 8 by omega, a3]
  · intro i hi
    rw [c7 i (by omega), b2 i (by omega), ht.nonvol i hi, a2 i (by omega) (by omega) (by omega) (by omega)]
  · intro a h1 h2
    rw [c2, b4 _ h2, hframe a h1]
  · intro hg
    rw [c7 4 (by omega), b2 4 (by omega), (hg _ _ ht').r4, a2 4 (by omega) (by omega) (by omega) (by omega)]

/-- The shadow stack that belongs to open calls. -/
def shadowOf (o : List St) : List (Int × Int) := o.reverse.map fun e => (e.r 2, e.lr)

/-- The invariant: the shadow stack holds exactly what the open calls saved, and all calls that are over returned to their
callers. -/
structure TInv (E : Env) (t : Thread) : Prop where
  ok : Ok E t.st.mem
  holds : Holds E t.st.mem (shadowOf t.open_)
  over : ∀ e x, (e, x) ∈ t.over → x.r 2 = e.r 2 ∧ x.lr = e.lr

theorem tstep_inv {E : Env} {tls : St → St → Prop} (htls : ∀ a b, tls a b → TlsCall E a b) {a b : Thread}
    (h : TStep E tls a b) (hi : TInv E a) : TInv E b := by
  obtain ⟨h1, h2, h3⟩ := hi
  cases h with
  | quiet hq =>
    obtain ⟨k1, k2⟩ := ok_holds_congr h1 h2 hq.ulp hq.buf
    exact ⟨k1, k2, h3⟩
  | enter hr he =>
    obtain ⟨e1, -⟩ := enter_spec htls hr h1 h2 he
    exact ⟨e1.ok, by simpa [shadowOf] using e1.holds, h3⟩
  | leave hr hl =>
    rename_i f s t e o d
    have h2' : Holds E s.mem (shadowOf o ++ [(e.r 2, e.lr)]) := by simpa [shadowOf] using h2
    obtain ⟨l1, -⟩ := leave_spec htls hr h1 h2' hl
    refine ⟨l1.ok, l1.holds, ?_⟩
    intro e' x hx
    rcases List.mem_cons.mp hx with heq | hx
    · cases heq; exact ⟨l1.toc, l1.lr⟩
    · exact h3 e' x hx

theorem tsteps_inv {E : Env} {tls : St → St → Prop} (htls : ∀ a b, tls a b → TlsCall E a b) {a b : Thread}
    (h : TSteps E tls a b) (hi : TInv E a) : TInv E b := by
  induction h with
  | refl => exact hi
  | tail _ hs ih => exact tstep_inv htls hs ih

theorem started_inv {E : Env} {s : St} (h : Started E s) : TInv E ⟨s, [], []⟩ := by
  obtain ⟨z0, z8, z16⟩ := h.zero
  refine ⟨⟨h.ulp, h.lohi, h.pg, ?_, ?_, ?_, ?_, ?_, ?_⟩, ⟨?_, ?_⟩, ?_⟩
  · rw [z0]; omega
  · rw [z0, z8]; omega
  · intro _; exact z0
  · rw [z16]; omega
  · rw [z0]; omega
  · rw [z0]; omega
  · simp [shadowOf, z8]
  · intro k e hk; simp [shadowOf] at hk
  · intro e x hx; cases hx

/-- Entering is always possible, whatever `__tls_get_addr` does and wherever the new mapping is. -/
theorem enter_exists {E : Env} {tls : St → St → Prop} {f : Int} {s s1 : St} {B : Int}
    (ht : tls (run (seg1 E f) s) s1) (hB : Fresh E B (run expandPre (run seg2 s1)).mem) : ∃ s', Enter E tls f s s' := by
  by_cases hc : (run seg2 s1).r 6 ≤ (run seg2 s1).r 5
  · let p := run expandPre (run seg2 s1)
    let s2 : St := { p with r := fun i => if i = 3 then E.ulp else p.r i, mem := helperMem E B p.mem }
    refine ⟨run cont (run expandPost s2), s1, ht, ?_⟩
    rw [if_pos hc]
    refine ⟨s2, B, ⟨?_, ?_, ?_, hB, ?_⟩, rfl⟩
    · simp [s2, p]
    · intro i hi
      have : i ≠ 3 := by omega
      simp [s2, p, this]
    · simp [s2]
    · intro a _; rfl
  · exact ⟨_, s1, ht, by rw [if_neg hc]⟩

end Verif.Ppc
