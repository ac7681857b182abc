import Verif.Moving.Lemmas

/-!
# C184: libraries that stay loaded are seen
-/

namespace Verif.Moving

open Spec

/-- **C184 (partial).**  Of libraries that are loaded in front of all that come and go, such as those which a program is
started with and those which are preloaded, the tool misses none, whatever the program loads and unloads meanwhile, and
whatever becomes of the memory of libraries that were unloaded. -/
theorem C184_first_partial {main : Nat} {S : List Nat} {p q : Proc} {u : Tool} {nd : Node} (hs : Sound p main)
    (hk : (main :: S) <+: p.list) (hm : p.mem main = some nd)
    (r : Run (fun l => (main :: S) <+: l) p (Tool.start nd) q u) (he : u.ended) : S.map (nameAt p) <+: u.seen := by
  have hf : Far (nameAt p) S (Tool.start nd) := by
    cases S with
    | nil => right; simp
    | cons b S =>
      left
      obtain ⟨R, hR⟩ := hk
      have hc := hs.chain
      rw [← hR] at hc
      obtain ⟨_, nd', h1, h2, _⟩ := hc
      rw [hm, Option.some.injEq] at h1
      subst h1
      exact ⟨rfl, [], b, S, rfl, rfl, h2⟩
  obtain ⟨s1, s2, _, s4⟩ := run_far hs hk (fun _ _ => rfl) hf r
  rcases s4 with ⟨h1, S1, b, S2, e1, _, e3⟩ | h
  · exfalso
    rcases he with he | he
    · apply s1.nonnull
      rw [← he, e3]
      exact s2.subset (by simp [e1])
    · rw [h1] at he; cases he
  · exact h

/-- Rounds of the tool while the process does nothing. -/
theorem rounds {K : List Nat → Prop} {p0 p : Proc} {t0 : Tool} (A : List Nat) (a z : Nat) (seen : List Str)
    (hc : Seg p.mem a A z) (h0 : 0 ∉ A) (r : Run K p0 t0 p ⟨a, seen, false⟩) :
    Run K p0 t0 p ⟨z, seen ++ A.map (nameAt p), false⟩ := by
  induction A generalizing a seen with
  | nil => cases hc; simpa using r
  | cons b A ih =>
    obtain ⟨rfl, nd, h1, h2⟩ := hc
    have hne : ¬ (⟨a, seen, false⟩ : Tool).ended := by
      rintro (h | h)
      · exact h0 (by simp at h; simp [h])
      · cases h
    have := Run.tool r hne
    simp only [Tool.round, h1] at this
    have := ih nd.next (seen ++ [nd.name]) h2 (fun h => h0 (List.mem_cons_of_mem _ h)) this
    simpa [nameAt, h1] using this

/-- The tool has come to the library `x` when it is unloaded. -/
theorem at_unloaded {main x : Nat} {A B : List Nat} {p : Proc} {nd : Node} (hs : Sound p main)
    (hl : p.list = main :: A ++ x :: B) (hm : p.mem main = some nd) :
    ∃ mem, Run (fun l => (main :: A) <+: l ∧ ∀ b ∈ B, b ∈ l) p (Tool.start nd) ⟨mem, main :: A ++ B⟩
      ⟨x, A.map (nameAt p), false⟩ ∧ Sound ⟨mem, main :: A ++ B⟩ main := by
  have hc := hs.chain
  rw [hl] at hc
  obtain ⟨y, h1, rfl, nx, hx, h2⟩ := (seg_append _ _ _ _).1 hc
  obtain ⟨_, nd', h3, h4⟩ := h1
  rw [hm, Option.some.injEq] at h3
  subst h3
  have h0 : 0 ∉ A := fun h => hs.nonnull (by rw [hl]; simp [h])
  have r1 := rounds (K := fun l => (main :: A) <+: l ∧ ∀ b ∈ B, b ∈ l) A nd.next y [] h4 h0 (Run.refl (p := p))
  simp only [List.nil_append] at r1
  obtain ⟨l, z, hlz⟩ : ∃ l z, main :: A = l ++ [z] :=
    ⟨(main :: A).dropLast, (main :: A).getLast (by simp), (List.dropLast_concat_getLast (by simp)).symm⟩
  obtain ⟨nz, hz⟩ : ∃ nz, p.mem z = some nz := seg_some hs.chain (by rw [hl, hlz]; simp)
  have st : Step p ⟨Function.update p.mem z (some { nz with next := nx.next }), main :: A ++ B⟩ := by
    have := Step.unlink (l := l) (r := B) hz hx
    rw [← hlz, ← hl] at this
    exact this
  exact ⟨_, Run.proc r1 st ⟨List.prefix_append _ _, fun b hb => List.mem_append_right _ hb⟩, (step_sound hs st).1.choose_spec.2.2⟩

/-- **C184 is false.**  A library behind one that is unloaded can be missed although it is loaded all the time: if the memory
of the latter is used for the next library that is loaded, the tool goes on at the end of the list, and so misses all
in between without noticing. -/
theorem C184_missed {main x : Nat} {A B : List Nat} {p : Proc} {nd : Node} (hs : Sound p main)
    (hl : p.list = main :: A ++ x :: B) (hm : p.mem main = some nd) (y : Str) :
    ∃ q u, Run (fun l => (main :: A) <+: l ∧ ∀ b ∈ B, b ∈ l) p (Tool.start nd) q u ∧ u.ended ∧ u.failed = false ∧
      u.seen = A.map (nameAt p) ++ [y] := by
  obtain ⟨mem, r, hs1⟩ := at_unloaded hs hl hm
  have hx : x ∉ main :: A ++ B := by
    have := hs.nodup
    rw [hl, List.nodup_append] at this
    intro h
    rcases List.mem_append.mp h with h | h
    · exact this.2.2 x h x (by simp) rfl
    · exact (List.nodup_cons.mp this.2.1).1 h
  have hx0 : x ≠ 0 := fun e => hs.nonnull (by rw [hl, ← e]; simp)
  have r2 := Run.proc r (Step.scribble (v := some ⟨y, 0⟩) hx) ⟨List.prefix_append _ _, fun b hb => List.mem_append_right _ hb⟩
  obtain ⟨l, z, hlz⟩ : ∃ l z, main :: A ++ B = l ++ [z] :=
    ⟨(main :: A ++ B).dropLast, (main :: A ++ B).getLast (by simp), (List.dropLast_concat_getLast (by simp)).symm⟩
  have hzx : z ≠ x := fun e => hx (by rw [hlz, e]; simp)
  obtain ⟨nz, hz⟩ : ∃ nz, mem z = some nz := seg_some hs1.chain (by simp only; rw [hlz]; simp)
  simp only [hlz] at r2 hx
  have r3 := Run.proc r2 (Step.link (a := x) (n := y) (nd := nz) hx hx0 (by simp)
    (by rw [Function.update_of_ne hzx]; exact hz)) (by
      simp only [← hlz]
      exact ⟨(List.prefix_append _ _).trans (List.prefix_append _ _), fun b hb => by simp [hb]⟩)
  have hne : ¬ (⟨x, A.map (nameAt p), false⟩ : Tool).ended := by
    rintro (h | h)
    · exact hx0 h
    · cases h
  have r4 := Run.tool r3 hne
  have hmx : Function.update (Function.update mem x (some ⟨y, 0⟩)) z (some { nz with next := x }) x = some ⟨y, 0⟩ := by
    rw [Function.update_of_ne (fun e => hzx e.symm)]; simp
  simp only [Tool.round, hmx] at r4
  exact ⟨_, _, r4, Or.inl rfl, rfl, rfl⟩

/-- **C184 is false.**  Or the tool gives up there, with what it has seen so far, and goes on as if this were all. -/
theorem C184_gives_up {main x : Nat} {A B : List Nat} {p : Proc} {nd : Node} (hs : Sound p main)
    (hl : p.list = main :: A ++ x :: B) (hm : p.mem main = some nd) :
    ∃ q u, Run (fun l => (main :: A) <+: l ∧ ∀ b ∈ B, b ∈ l) p (Tool.start nd) q u ∧ u.ended ∧ u.failed = true ∧
      u.seen = A.map (nameAt p) := by
  obtain ⟨mem, r, hs1⟩ := at_unloaded hs hl hm
  have hx : x ∉ main :: A ++ B := by
    have := hs.nodup
    rw [hl, List.nodup_append] at this
    intro h
    rcases List.mem_append.mp h with h | h
    · exact this.2.2 x h x (by simp) rfl
    · exact (List.nodup_cons.mp this.2.1).1 h
  have hx0 : x ≠ 0 := fun e => hs.nonnull (by rw [hl, ← e]; simp)
  have r2 := Run.proc r (Step.scribble (v := none) hx) ⟨List.prefix_append _ _, fun b hb => List.mem_append_right _ hb⟩
  have hne : ¬ (⟨x, A.map (nameAt p), false⟩ : Tool).ended := by
    rintro (h | h)
    · exact hx0 h
    · cases h
  have r4 := Run.tool r2 hne
  simp only [Tool.round, Function.update_self] at r4
  exact ⟨_, _, r4, Or.inr rfl, rfl, rfl⟩

/-! ### Cases -/

/-- A program at 1 with libpulp at 2 and libc at 3, and two plugins at 4 and 5. -/
def demo : Proc :=
  ⟨fun a => if a = 1 then some ⟨[], 2⟩ else if a = 2 then some ⟨[112], 3⟩ else if a = 3 then some ⟨[99], 4⟩
    else if a = 4 then some ⟨[120], 5⟩ else if a = 5 then some ⟨[121], 0⟩ else none, [1, 2, 3, 4, 5]⟩

theorem demo_sound : Sound demo 1 :=
  ⟨⟨rfl, _, rfl, rfl, _, rfl, rfl, _, rfl, rfl, _, rfl, rfl, _, rfl, rfl⟩, by decide, by decide, by decide⟩

/-- C184: libpulp and libc are seen. -/
example (q : Proc) (u : Tool) (r : Run (fun l => [1, 2, 3] <+: l) demo (Tool.start ⟨[], 2⟩) q u) (he : u.ended) :
    [[112], [99]] <+: u.seen :=
  C184_first_partial demo_sound (by decide) rfl r he

/-- and there are such runs, here one in which the plugin at 4 is unloaded and its memory used for another. -/
example : ∃ q u, Run (fun l => [1, 2, 3] <+: l) demo (Tool.start ⟨[], 2⟩) q u ∧ u.ended ∧
    u.seen = [[112], [99], [122]] := by
  obtain ⟨q, u, r, h1, h3, h2⟩ := C184_missed (A := [2, 3]) (x := 4) (B := [5]) demo_sound rfl rfl [122]
  refine ⟨q, u, ?_, h1, h2⟩
  clear h1 h2 h3
  induction r with
  | refl => exact .refl
  | proc _ h k ih => exact .proc ih h k.1
  | tool _ h ih => exact .tool ih h

/-- C184: the plugin at 5 stays loaded and is missed. -/
example : ∃ q u, Run (fun l => [1, 2, 3] <+: l ∧ ∀ b ∈ [5], b ∈ l) demo (Tool.start ⟨[], 2⟩) q u ∧ u.ended ∧ u.failed = false ∧
    u.seen = [[112], [99], [122]] :=
  C184_missed (A := [2, 3]) (x := 4) (B := [5]) demo_sound rfl rfl [122]

example : ∃ q u, Run (fun l => [1, 2, 3] <+: l ∧ ∀ b ∈ [5], b ∈ l) demo (Tool.start ⟨[], 2⟩) q u ∧ u.ended ∧ u.failed = true ∧
    u.seen = [[112], [99]] :=
  C184_gives_up (A := [2, 3]) (x := 4) (B := [5]) demo_sound rfl rfl

end Verif.Moving
