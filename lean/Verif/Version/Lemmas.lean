import Verif.Version.Spec
import Verif.Text.Props

namespace Verif.Version

open Verif.Inspect (Proc)
open Verif.Ptrace (readStringAllocated readAllocatedLoop readLong hasbytezero asLong)

theorem least {P : Nat → Prop} (n : Nat) (h : P n) : ∃ m, m ≤ n ∧ P m ∧ ∀ k, k < m → ¬ P k := by
  induction n using Nat.strongRecOn with
  | ind n ih =>
    by_cases hk : ∃ k, k < n ∧ P k
    · obtain ⟨k, h1, h2⟩ := hk
      obtain ⟨m, h3, h4, h5⟩ := ih k h1 h2
      exact ⟨m, by omega, h4, h5⟩
    · exact ⟨n, by omega, h, fun k hlt hp => hk ⟨k, hlt, hp⟩⟩

theorem mem_load {m : Mem} {a n : Nat} {c : UInt8} : c ∈ m.load a n ↔ ∃ i, i < n ∧ m (a + i) = c := by
  constructor
  · intro h
    obtain ⟨i, hi, e⟩ := List.getElem_of_mem h
    rw [load_getElem] at e
    exact ⟨i, by simpa using hi, e⟩
  · rintro ⟨i, hi, rfl⟩
    rw [← load_getElem m a n i (by simpa using hi)]
    exact List.getElem_mem _

theorem holds_of_least {m : Mem} {a n : Nat} (h0 : m (a + n) = 0) (h : ∀ k, k < n → ¬ m (a + k) = 0) : Ptrace.HoldsString m a (m.load a n) := by
  refine ⟨?_, ?_⟩
  · rw [at_append]
    refine ⟨by unfold At; rw [load_length], ?_⟩
    rw [load_length]
    unfold At
    simp [Mem.load, h0]
  · rw [mem_load]
    rintro ⟨i, h1, h2⟩
    exact h i h1 h2

theorem readLong_some {p : Proc} {a k : Nat} {w : List UInt8} (h : readLong p.readable p.mem (a + 8 * k) = some w) :
    WordReadable p a k ∧ w = p.mem.load (a + 8 * k) 8 := by
  unfold readLong at h
  by_cases hall : ((List.range 8).all fun i => p.readable (a + 8 * k + i)) = true
  · rw [if_pos hall] at h
    refine ⟨fun i hi => List.all_eq_true.mp hall i (by simpa using hi), (Option.some.inj h).symm⟩
  · rw [if_neg hall] at h; cases h

theorem loop_fits {p : Proc} {a : Nat} (n j : Nat) (hn : j + n = 4) (buf : List UInt8) (hb : buf.length = 32)
    (hz : ∀ i, i < 8 * j → p.mem (a + i) ≠ 0) (hw : ∀ k, k < j → WordReadable p a k) (buf' : List UInt8)
    (h : readAllocatedLoop (readLong p.readable p.mem) 0 n (a + 8 * j) (8 * j) (p.mem.load a (8 * j) ++ buf.drop (8 * j)) = .ok buf')
    (h0 : (0 : UInt8) ∈ buf') : Fits p a := by
  induction n generalizing j with
  | zero =>
    obtain rfl : j = 4 := by omega
    rw [readAllocatedLoop, if_neg (by omega)] at h
    cases h
    rw [List.drop_of_length_le (by omega), List.append_nil, mem_load] at h0
    obtain ⟨i, h1, h2⟩ := h0
    exact absurd h2 (hz i h1)
  | succ n ih =>
    rw [readAllocatedLoop] at h
    cases hr : readLong p.readable p.mem (a + 8 * j) with
    | none => rw [hr] at h; cases h
    | some w =>
      obtain ⟨h1, rfl⟩ := readLong_some hr
      rw [hr] at h
      dsimp only at h
      have e1 : (p.mem.load a (8 * j) ++ buf.drop (8 * j)).take (8 * j) = p.mem.load a (8 * j) := List.take_left' (by simp)
      have e2 : (p.mem.load a (8 * j) ++ buf.drop (8 * j)).drop (8 * j + 8) = buf.drop (8 * j + 8) := by
        rw [List.drop_append, List.drop_of_length_le (by simp), List.drop_drop]
        simp
      rw [e1, e2, ← load_append] at h
      by_cases hb0 : hasbytezero (asLong (p.mem.load (a + 8 * j) 8)) = true
      · rw [Ptrace.hasbytezero_iff _ (by simp), mem_load] at hb0
        obtain ⟨i, h2, h3⟩ := hb0
        refine ⟨8 * j + i, by omega, by rw [← Nat.add_assoc]; exact h3, fun k hk => ?_⟩
        by_cases hkj : k < j
        · exact hw k hkj
        · obtain rfl : k = j := by omega
          exact h1
      · rw [if_neg hb0] at h
        refine ih (j + 1) (by omega) ?_ ?_ h
        · intro i hi hc
          by_cases hlt : i < 8 * j
          · exact hz i hlt hc
          · refine hb0 ?_
            rw [Ptrace.hasbytezero_iff _ (by simp), mem_load]
            exact ⟨i - 8 * j, by omega, by rw [show a + 8 * j + (i - 8 * j) = a + i by omega]; exact hc⟩
        · intro k hk
          by_cases hkj : k < j
          · exact hw k hkj
          · obtain rfl : k = j := by omega
            exact h1

/-- What is read if the text fits. -/
theorem readVersion_text {p : Proc} {a : Nat} {s : Str} (h : Has p a s) (hl : s.length < 32) (hw : ∀ k, k ≤ s.length / 8 → WordReadable p a k)
    (junk : List UInt8) (hj : junk.length = size) : readVersion p a junk = some (Text.versionFromString s) := by
  obtain ⟨buf, h1, h2, h3⟩ := Ptrace.C10_read_string_allocated_partial h
    (fun i hi => by
      have := hw (i / 8) (by omega) (i % 8) (by omega)
      rwa [show a + 8 * (i / 8) + i % 8 = a + i by omega] at this) junk (by rw [hj]; exact hl)
  unfold readVersion
  rw [h1]
  dsimp only
  rw [if_pos, h2]
  apply Classical.byContradiction
  intro h0
  have : Ptrace.cstr buf = buf := by
    unfold Ptrace.cstr
    have := List.takeWhile_append_of_pos (l₁ := buf) (l₂ := []) (p := fun c => c != 0) (fun x hx => by
      simp only [bne_iff_ne, ne_eq]; rintro rfl; exact h0 hx)
    simpa using this
  rw [this] at h2
  rw [h2, hj] at h3
  unfold size at h3
  omega

end Verif.Version
