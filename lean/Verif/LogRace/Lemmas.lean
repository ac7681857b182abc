import Verif.LogRace.Spec

/-!
# Lemmas about threads that log
-/

namespace Verif.LogRace

open Verif.MsgQueue

theorem upd {α : Type} (f : Nat → α) (a b : Nat) (v : α) :
    Function.update f a v b = if b = a then v else f b := by
  by_cases h : b = a
  · subst h; simp
  · simp [h]

theorem strlen_some (buf : Nat → UInt8) (room pos : Nat) (hr : 0 < room) (hz : buf (pos + room - 1) = 0) :
    ∃ len, strlen buf pos room = some len ∧ len < room := by
  induction room generalizing pos with
  | zero => omega
  | succ room ih =>
    unfold strlen
    by_cases h : buf pos = 0
    · exact ⟨0, by simp [h], by omega⟩
    · by_cases hr' : room = 0
      · subst hr'
        exact absurd (by simpa using hz) h
      · obtain ⟨len, h1, h2⟩ := ih (pos + 1) (by omega) (by
          have : pos + 1 + room - 1 = pos + (room + 1) - 1 := by omega
          rw [this]; exact hz)
        exact ⟨len + 1, by simp [h, h1], by omega⟩

/-! ### Nothing outside of the ring -/

/-- What is shared stays within bounds. -/
structure SafeSh (N : Nat) (sh : Shared) : Prop where
  top : sh.top < N
  bottom : sh.bottom < N
  last : sh.buf (N - 1) = 0
  msgLast : sh.msg (N - 1) = 0

/-- And so do the variables of a thread. -/
def SafeLo (N : Nat) : Pc → Local → Prop
  | .idle, _ => True
  | .loadTop, _ => True
  | .loadBottom, l => l.top < N
  | .loadDistance, l => l.top < N ∧ l.bottom < N
  | .check, l => l.top < N ∧ l.bottom < N
  | .pad, l => l.top < N ∧ l.bottom < N ∧ l.size ≤ N
  | .evict, l => l.bottom < N ∧ (l.top + l.size < N ∨ (l.top = 0 ∧ l.size ≤ N))
  | .strlen, l => l.bottom < N ∧ (l.top + l.size < N ∨ (l.top = 0 ∧ l.size ≤ N))
  | .skip, l => l.bottom < N ∧ (l.top + l.size < N ∨ (l.top = 0 ∧ l.size ≤ N))
  | .copy, l => l.bottom < N ∧ (l.top + l.size < N ∨ (l.top = 0 ∧ l.size ≤ N))
  | .storeTop, l => l.top < N ∧ l.bottom < N
  | .storeBottom, l => l.bottom < N
  | .storeDistance, _ => True

/-- A string of a thread's own ends with the NUL that its size counts. -/
def OwnSrc (l : Local) : Prop := ∀ b, l.src = some b → ∃ a, b = a ++ [0] ∧ l.size = a.length + 1

theorem act_safe {N : Nat} (hN : 0 < N) {sh : Shared} {pc : Pc} {l : Local} (hs : SafeSh N sh) (hl : SafeLo N pc l)
    (ho : OwnSrc l) :
    ∃ sh' pc' l', act N sh pc l = some (sh', pc', l') ∧ SafeSh N sh' ∧ SafeLo N pc' l' ∧ OwnSrc l' ∧
      sh'.msg = sh.msg ∧ l'.src = l.src ∧ l'.size = l.size := by
  obtain ⟨h1, h2, h3, h4⟩ := hs
  cases pc with
  | idle => exact ⟨_, _, _, rfl, ⟨h1, h2, h3, h4⟩, trivial, ho, rfl, rfl, rfl⟩
  | loadTop => exact ⟨_, _, _, rfl, ⟨h1, h2, h3, h4⟩, h1, ho, rfl, rfl, rfl⟩
  | loadBottom => exact ⟨_, _, _, rfl, ⟨h1, h2, h3, h4⟩, ⟨hl, h2⟩, ho, rfl, rfl, rfl⟩
  | loadDistance => exact ⟨_, _, _, rfl, ⟨h1, h2, h3, h4⟩, hl, ho, rfl, rfl, rfl⟩
  | check =>
    by_cases hc : byte sh l 0 = 0 ∨ N < l.size
    · exact ⟨sh, .idle, l, by simp [act, hc], ⟨h1, h2, h3, h4⟩, trivial, ho, rfl, rfl, rfl⟩
    · exact ⟨sh, .pad, l, by simp only [act]; rw [if_neg hc], ⟨h1, h2, h3, h4⟩,
        ⟨hl.1, hl.2, by omega⟩, ho, rfl, rfl, rfl⟩
  | pad =>
    obtain ⟨g1, g2, g3⟩ := hl
    by_cases hc : N ≤ l.top + l.size
    · refine ⟨{ sh with buf := clear sh.buf l.top (N - l.top) }, .evict,
        { l with distance := l.distance + (N - l.top : Nat), top := 0 },
        by simp only [act]; rw [if_pos hc, if_neg (by omega)], ⟨h1, h2, ?_, h4⟩,
        ⟨g2, Or.inr ⟨rfl, g3⟩⟩, ho, rfl, rfl, rfl⟩
      simp only [clear]
      rw [if_pos (by omega)]
    · exact ⟨sh, .evict, l, by simp only [act]; rw [if_neg hc], ⟨h1, h2, h3, h4⟩, ⟨g2, Or.inl (by omega)⟩, ho, rfl, rfl, rfl⟩
  | evict =>
    by_cases hc : tooFull N l.distance l.size = true
    · exact ⟨sh, .strlen, l, by simp [act, hc], ⟨h1, h2, h3, h4⟩, hl, ho, rfl, rfl, rfl⟩
    · exact ⟨sh, .copy, l, by simp [act, hc], ⟨h1, h2, h3, h4⟩, hl, ho, rfl, rfl, rfl⟩
  | strlen =>
    obtain ⟨g1, g2⟩ := hl
    obtain ⟨len, e1, e2⟩ := strlen_some sh.buf (N - l.bottom) l.bottom (by omega) (by
      have : l.bottom + (N - l.bottom) - 1 = N - 1 := by omega
      rw [this]; exact h3)
    exact ⟨sh, .skip, { l with travel := len + 1, bottom := (l.bottom + (len + 1)) % N },
      by simp only [act]; rw [if_neg (by omega)]; simp only [e1], ⟨h1, h2, h3, h4⟩,
      ⟨Nat.mod_lt _ hN, g2⟩, ho, rfl, rfl, rfl⟩
  | skip =>
    obtain ⟨g1, g2⟩ := hl
    by_cases hc : sh.buf l.bottom = 0
    · exact ⟨sh, .skip, { l with bottom := (l.bottom + 1) % N, travel := l.travel + 1 },
        by simp only [act]; rw [if_neg (by omega), if_pos hc], ⟨h1, h2, h3, h4⟩,
        ⟨Nat.mod_lt _ hN, g2⟩, ho, rfl, rfl, rfl⟩
    · exact ⟨sh, .evict, { l with distance := l.distance - l.travel },
        by simp only [act]; rw [if_neg (by omega), if_neg hc], ⟨h1, h2, h3, h4⟩, ⟨g1, g2⟩, ho, rfl, rfl, rfl⟩
  | copy =>
    obtain ⟨g1, g2⟩ := hl
    refine ⟨{ sh with buf := write sh l }, .storeTop,
      { l with distance := l.distance + l.size, top := (l.top + l.size) % N },
      by simp only [act]; rw [if_neg (by omega)], ⟨h1, h2, ?_, h4⟩,
      ⟨Nat.mod_lt _ hN, g1⟩, ho, rfl, rfl, rfl⟩
    simp only [write]
    by_cases hc : l.top ≤ N - 1 ∧ N - 1 < l.top + l.size
    · rw [if_pos hc]
      have ht : l.top = 0 := by omega
      have hz : l.size = N := by omega
      simp only [byte, ht, Nat.sub_zero]
      cases hb : l.src with
      | none => exact h4
      | some b =>
        obtain ⟨a, rfl, ha⟩ := ho b hb
        have : a.length = N - 1 := by omega
        simp only
        rw [← this]
        simp [List.getD]
    · rw [if_neg hc]; exact h3
  | storeTop => exact ⟨_, _, _, rfl, ⟨hl.1, h2, h3, h4⟩, hl.2, ho, rfl, rfl, rfl⟩
  | storeBottom => exact ⟨_, _, _, rfl, ⟨h1, hl, h3, h4⟩, trivial, ho, rfl, rfl, rfl⟩
  | storeDistance => exact ⟨_, _, _, rfl, ⟨h1, h2, h3, h4⟩, trivial, ho, rfl, rfl, rfl⟩

/-- Everything stays within bounds. -/
structure Safe (N : Nat) (s : Sys) : Prop where
  sh : SafeSh N s.sh
  lo : ∀ i, SafeLo N (s.th i).1 (s.th i).2
  own : ∀ i, OwnSrc (s.th i).2

theorem format_last {N : Nat} (hN : 0 < N) (m : List UInt8) (msg : Nat → UInt8) (h : msg (N - 1) = 0) :
    format N m msg (N - 1) = 0 := by
  simp only [format]
  rw [if_neg (by omega)]
  by_cases hc : N - 1 = min m.length (N - 1)
  · rw [if_pos hc]
  · rw [if_neg hc]; exact h

theorem safe_start {N : Nat} (hN : 0 < N) : Safe N Sys.start :=
  ⟨⟨hN, hN, rfl, rfl⟩, fun _ => trivial, fun _ b hb => by simp [Sys.start, enter] at hb⟩

theorem safe_step {N : Nat} (hN : 0 < N) {P : List UInt8 → Prop} {s s' : Sys} (h : Safe N s) (st : Step N P s s') :
    Safe N s' := by
  cases st with
  | @say i m h1 h2 h3 =>
    refine ⟨⟨h.sh.top, h.sh.bottom, h.sh.last, format_last hN m _ h.sh.msgLast⟩, ?_, ?_⟩
    · intro j
      simp only [said, upd]
      by_cases hj : j = i
      · simp [hj, SafeLo]
      · simpa [hj] using h.lo j
    · intro j
      simp only [said, upd]
      by_cases hj : j = i
      · simp [hj, OwnSrc, enter]
      · simpa [hj] using h.own j
  | @stamp i b h1 h2 h3 =>
    refine ⟨h.sh, ?_, ?_⟩
    · intro j
      simp only [stamped, upd]
      by_cases hj : j = i
      · simp [hj, SafeLo]
      · simpa [hj] using h.lo j
    · intro j
      simp only [stamped, upd]
      by_cases hj : j = i
      · rw [if_pos hj]
        intro b' hb'
        simp only [enter, Option.some.injEq] at hb'
        exact ⟨b, hb'.symm, rfl⟩
      · simpa [hj] using h.own j
  | @go i sh pc l h1 h2 =>
    obtain ⟨sh', pc', l', e, g1, g2, g3, _⟩ := act_safe hN h.sh (h.lo i) (h.own i)
    rw [h2] at e
    simp only [Option.some.injEq, Prod.mk.injEq] at e
    obtain ⟨rfl, rfl, rfl⟩ := e
    refine ⟨g1, ?_, ?_⟩
    · intro j
      simp only [upd]
      by_cases hj : j = i
      · simpa [hj] using g2
      · simpa [hj] using h.lo j
    · intro j
      simp only [upd]
      by_cases hj : j = i
      · simpa [hj] using g3
      · simpa [hj] using h.own j

theorem safe_steps {N : Nat} (hN : 0 < N) {P : List UInt8 → Prop} {s s' : Sys} (h : Safe N s) (st : Steps N P s s') :
    Safe N s' := by
  induction st with
  | refl => exact h
  | tail _ b ih => exact safe_step hN ih b

/-! ### No endless loop -/

/-- The ring has something at its start as soon as anything was logged. -/
structure LiveSh (N : Nat) (sh : Shared) : Prop where
  dist : 0 ≤ sh.distance ∧ sh.distance < N
  top : sh.top ≠ 0 → sh.buf 0 ≠ 0
  some : sh.distance ≠ 0 → sh.buf 0 ≠ 0

/-- The numbers of a thread, and what they say about the start of the ring. -/
def LiveLo (N : Nat) (sh : Shared) : Pc → Local → Prop
  | .idle, _ => True
  | .loadTop, _ => True
  | .loadBottom, l => l.top ≠ 0 → sh.buf 0 ≠ 0
  | .loadDistance, l => l.top ≠ 0 → sh.buf 0 ≠ 0
  | .check, l => (l.top ≠ 0 → sh.buf 0 ≠ 0) ∧ 0 ≤ l.distance ∧ l.distance < N ∧ (l.distance ≠ 0 → sh.buf 0 ≠ 0)
  | .pad, l => (l.top ≠ 0 → sh.buf 0 ≠ 0) ∧ 0 ≤ l.distance ∧ l.distance < N ∧ (l.distance ≠ 0 → sh.buf 0 ≠ 0)
  | .evict, l => (l.top ≠ 0 → sh.buf 0 ≠ 0) ∧ 0 ≤ l.distance + l.size ∧ l.distance + l.size ≤ 3 * N ∧
      (0 < l.distance → sh.buf 0 ≠ 0)
  | .strlen, l => N ≤ l.distance + l.size ∧ l.distance + l.size ≤ 3 * N ∧ sh.buf 0 ≠ 0
  | .skip, l => N ≤ l.distance + l.size ∧ l.distance + l.size ≤ 3 * N ∧ sh.buf 0 ≠ 0 ∧ 1 ≤ l.travel ∧
      ((l.bottom = 0 ∧ l.travel ≤ N) ∨ l.travel ≤ l.bottom)
  | .copy, l => (l.top ≠ 0 → sh.buf 0 ≠ 0) ∧ 0 ≤ l.distance + l.size ∧ l.distance + l.size < N
  | .storeTop, l => 0 ≤ l.distance ∧ l.distance < N ∧ sh.buf 0 ≠ 0
  | .storeBottom, l => 0 ≤ l.distance ∧ l.distance < N ∧ sh.buf 0 ≠ 0
  | .storeDistance, l => 0 ≤ l.distance ∧ l.distance < N ∧ sh.buf 0 ≠ 0

/-- The message of a thread is an ordinary one. -/
def LiveMsg (N : Nat) (sh : Shared) (l : Local) : Prop := 2 ≤ l.size ∧ l.size ≠ N ∧ byte sh l 0 ≠ 0

/-- How many steps are left at most. -/
def rank (N : Nat) : Pc → Local → Nat
  | .idle, _ => 0
  | .storeDistance, _ => 1
  | .storeBottom, _ => 2
  | .storeTop, _ => 3
  | .copy, _ => 4
  | .evict, l => 5 + (l.distance + l.size).toNat * (N + 3)
  | .strlen, l => 4 + (l.distance + l.size).toNat * (N + 3)
  | .skip, l => 5 + (l.distance + l.size - l.travel).toNat * (N + 3) + (if l.bottom = 0 then 1 else N - l.bottom + 1)
  | .pad, _ => 6 + 3 * N * (N + 3)
  | .check, _ => 7 + 3 * N * (N + 3)
  | .loadDistance, _ => 8 + 3 * N * (N + 3)
  | .loadBottom, _ => 9 + 3 * N * (N + 3)
  | .loadTop, _ => 10 + 3 * N * (N + 3)

theorem liveLo_mono {N : Nat} {sh sh' : Shared} {pc : Pc} {l : Local} (h : LiveLo N sh pc l)
    (hb : sh.buf 0 ≠ 0 → sh'.buf 0 ≠ 0) : LiveLo N sh' pc l := by
  cases pc <;> simp only [LiveLo] at h ⊢ <;> grind

theorem tooFull_iff {N : Nat} (hN : N ≤ 2 ^ 30) {d : Int} {z : Nat} (h1 : 0 ≤ d + z) (h2 : d + z ≤ 3 * N) :
    tooFull N d z = true ↔ (N : Int) ≤ d + z := by
  unfold tooFull
  rw [decide_eq_true_eq, Int.emod_eq_of_lt h1 (by omega)]

theorem act_live {N : Nat} (hN : N ≤ 2 ^ 30) {sh sh' : Shared} {pc pc' : Pc} {l l' : Local} (hs : SafeSh N sh)
    (hl : SafeLo N pc l) (gs : LiveSh N sh) (gl : LiveLo N sh pc l) (gm : LiveMsg N sh l) (hne : pc ≠ .idle)
    (e : act N sh pc l = some (sh', pc', l')) :
    LiveSh N sh' ∧ LiveLo N sh' pc' l' ∧ (sh.buf 0 ≠ 0 → sh'.buf 0 ≠ 0) ∧ rank N pc' l' < rank N pc l := by
  obtain ⟨d1, d2, d3⟩ := gs
  obtain ⟨m1, m2, m3⟩ := gm
  cases pc with
  | idle => exact absurd rfl hne
  | loadTop =>
    simp only [act, Option.some.injEq, Prod.mk.injEq] at e
    obtain ⟨rfl, rfl, rfl⟩ := e
    exact ⟨⟨d1, d2, d3⟩, d2, id, by simp [rank]⟩
  | loadBottom =>
    simp only [act, Option.some.injEq, Prod.mk.injEq] at e
    obtain ⟨rfl, rfl, rfl⟩ := e
    exact ⟨⟨d1, d2, d3⟩, gl, id, by simp [rank]⟩
  | loadDistance =>
    simp only [act, Option.some.injEq, Prod.mk.injEq] at e
    obtain ⟨rfl, rfl, rfl⟩ := e
    exact ⟨⟨d1, d2, d3⟩, ⟨gl, d1.1, d1.2, d3⟩, id, by simp [rank]⟩
  | check =>
    simp only [act] at e
    by_cases hc : byte sh l 0 = 0 ∨ N < l.size
    · rw [if_pos hc] at e
      simp only [Option.some.injEq, Prod.mk.injEq] at e
      obtain ⟨rfl, rfl, rfl⟩ := e
      exact ⟨⟨d1, d2, d3⟩, trivial, id, by simp only [rank]; omega⟩
    · rw [if_neg hc] at e
      simp only [Option.some.injEq, Prod.mk.injEq] at e
      obtain ⟨rfl, rfl, rfl⟩ := e
      exact ⟨⟨d1, d2, d3⟩, gl, id, by simp [rank]⟩
  | pad =>
    simp only [act] at e
    obtain ⟨g1, g2, g3⟩ := hl
    obtain ⟨k1, k2, k3, k4⟩ := gl
    have hr : ∀ x : Int, x ≤ 3 * N → 5 + x.toNat * (N + 3) < 6 + 3 * N * (N + 3) := by
      intro x hx
      have : x.toNat ≤ 3 * N := by omega
      have := Nat.mul_le_mul_right (N + 3) this
      omega
    by_cases hc : N ≤ l.top + l.size
    · rw [if_pos hc, if_neg (by omega)] at e
      simp only [Option.some.injEq, Prod.mk.injEq] at e
      obtain ⟨rfl, rfl, rfl⟩ := e
      have ht : l.top ≠ 0 := by omega
      have hb := k1 ht
      have hb' : clear sh.buf l.top (N - l.top) 0 ≠ 0 := by
        simp only [clear]
        rw [if_neg (by omega)]
        exact hb
      refine ⟨⟨d1, fun _ => hb', fun _ => hb'⟩, ⟨fun h => absurd rfl h, ?_, ?_, fun _ => hb'⟩, fun _ => hb', ?_⟩
      · simp only; omega
      · simp only; omega
      · exact hr _ (by simp only; omega)
    · rw [if_neg hc] at e
      simp only [Option.some.injEq, Prod.mk.injEq] at e
      obtain ⟨rfl, rfl, rfl⟩ := e
      exact ⟨⟨d1, d2, d3⟩, ⟨k1, by omega, by omega, fun h => k4 (by omega)⟩, id, hr _ (by omega)⟩
  | evict =>
    simp only [act] at e
    obtain ⟨g1, g2⟩ := hl
    obtain ⟨k1, k2, k3, k4⟩ := gl
    have hz : l.size < N := by omega
    by_cases hc : tooFull N l.distance l.size = true
    · rw [if_pos hc] at e
      simp only [Option.some.injEq, Prod.mk.injEq] at e
      obtain ⟨rfl, rfl, rfl⟩ := e
      have hf := (tooFull_iff hN k2 k3).1 hc
      exact ⟨⟨d1, d2, d3⟩, ⟨hf, k3, k4 (by omega)⟩, id, by simp [rank]⟩
    · rw [if_neg hc] at e
      simp only [Option.some.injEq, Prod.mk.injEq] at e
      obtain ⟨rfl, rfl, rfl⟩ := e
      have hf : ¬ (N : Int) ≤ l.distance + l.size := fun h => hc ((tooFull_iff hN k2 k3).2 h)
      exact ⟨⟨d1, d2, d3⟩, ⟨k1, k2, by omega⟩, id, by simp only [rank]; omega⟩
  | strlen =>
    simp only [act] at e
    obtain ⟨g1, g2⟩ := hl
    obtain ⟨k1, k2, k3⟩ := gl
    obtain ⟨len, e1, e2⟩ := strlen_some sh.buf (N - l.bottom) l.bottom (by omega) (by
      have : l.bottom + (N - l.bottom) - 1 = N - 1 := by omega
      rw [this]; exact hs.last)
    rw [if_neg (by omega)] at e
    simp only [e1, Option.some.injEq, Prod.mk.injEq] at e
    obtain ⟨rfl, rfl, rfl⟩ := e
    have hb : (l.bottom + (len + 1)) % N = 0 ∨ len + 1 ≤ (l.bottom + (len + 1)) % N := by
      by_cases h : l.bottom + (len + 1) = N
      · left; rw [h]; simp
      · right; rw [Nat.mod_eq_of_lt (by omega)]; omega
    refine ⟨⟨d1, d2, d3⟩, ⟨k1, k2, k3, by simp only; omega, ?_⟩, id, ?_⟩
    · rcases hb with h | h
      · left; exact ⟨h, by simp only; omega⟩
      · right; exact h
    · simp only [rank]
      have hx : (l.distance + l.size - (len + 1 : Nat)).toNat + 1 ≤ (l.distance + l.size).toNat := by omega
      have hy := Nat.mul_le_mul_right (N + 3) hx
      rw [Nat.add_mul] at hy
      have hi : (if (l.bottom + (len + 1)) % N = 0 then 1 else N - (l.bottom + (len + 1)) % N + 1) ≤ N + 1 := by
        by_cases h : (l.bottom + (len + 1)) % N = 0
        · rw [if_pos h]; omega
        · rw [if_neg h]; omega
      omega
  | skip =>
    simp only [act] at e
    obtain ⟨g1, g2⟩ := hl
    obtain ⟨k1, k2, k3, k4, k5⟩ := gl
    rw [if_neg (by omega)] at e
    by_cases hc : sh.buf l.bottom = 0
    · rw [if_pos hc] at e
      simp only [Option.some.injEq, Prod.mk.injEq] at e
      obtain ⟨rfl, rfl, rfl⟩ := e
      have hb0 : l.bottom ≠ 0 := fun h => k3 (h ▸ hc)
      have hb : (l.bottom + 1) % N = 0 ∧ l.travel + 1 ≤ N ∨ l.travel + 1 ≤ (l.bottom + 1) % N := by
        by_cases h : l.bottom + 1 = N
        · left; rw [h]; simp; omega
        · right; rw [Nat.mod_eq_of_lt (by omega)]; omega
      refine ⟨⟨d1, d2, d3⟩, ⟨k1, k2, k3, by simp only; omega, hb⟩, id, ?_⟩
      simp only [rank]
      have hx : (l.distance + l.size - (l.travel + 1 : Nat)).toNat ≤ (l.distance + l.size - l.travel).toNat := by omega
      have hy := Nat.mul_le_mul_right (N + 3) hx
      rw [if_neg hb0]
      have hi : (if (l.bottom + 1) % N = 0 then 1 else N - (l.bottom + 1) % N + 1) < N - l.bottom + 1 := by
        by_cases h : l.bottom + 1 = N
        · rw [h]; simp; omega
        · rw [Nat.mod_eq_of_lt (by omega)]; simp; omega
      omega
    · rw [if_neg hc] at e
      simp only [Option.some.injEq, Prod.mk.injEq] at e
      obtain ⟨rfl, rfl, rfl⟩ := e
      have ht : l.travel ≤ N := by omega
      refine ⟨⟨d1, d2, d3⟩, ⟨fun _ => k3, ?_, ?_, fun _ => k3⟩, id, ?_⟩
      · simp only; omega
      · simp only; omega
      · simp only [rank]
        have : l.distance - (l.travel : Int) + l.size = l.distance + l.size - l.travel := by omega
        rw [this]
        have : 0 < (if l.bottom = 0 then 1 else N - l.bottom + 1) := by
          by_cases h : l.bottom = 0
          · rw [if_pos h]; omega
          · rw [if_neg h]; omega
        omega
  | copy =>
    simp only [act] at e
    obtain ⟨g1, g2⟩ := hl
    obtain ⟨k1, k2, k3⟩ := gl
    rw [if_neg (by omega)] at e
    simp only [Option.some.injEq, Prod.mk.injEq] at e
    obtain ⟨rfl, rfl, rfl⟩ := e
    have hb : write sh l 0 ≠ 0 := by
      simp only [write]
      by_cases h : l.top = 0
      · rw [if_pos (by omega), h]; exact m3
      · rw [if_neg (by omega)]; exact k1 h
    exact ⟨⟨d1, fun _ => hb, fun _ => hb⟩, ⟨k2, k3, hb⟩, fun _ => hb, by simp [rank]⟩
  | storeTop =>
    simp only [act, Option.some.injEq, Prod.mk.injEq] at e
    obtain ⟨rfl, rfl, rfl⟩ := e
    obtain ⟨k1, k2, k3⟩ := gl
    exact ⟨⟨d1, fun _ => k3, d3⟩, ⟨k1, k2, k3⟩, id, by simp [rank]⟩
  | storeBottom =>
    simp only [act, Option.some.injEq, Prod.mk.injEq] at e
    obtain ⟨rfl, rfl, rfl⟩ := e
    exact ⟨⟨d1, d2, d3⟩, gl, id, by simp [rank]⟩
  | storeDistance =>
    simp only [act, Option.some.injEq, Prod.mk.injEq] at e
    obtain ⟨rfl, rfl, rfl⟩ := e
    obtain ⟨k1, k2, k3⟩ := gl
    exact ⟨⟨⟨k1, k2⟩, d2, fun _ => k3⟩, trivial, id, by simp [rank]⟩

end Verif.LogRace
