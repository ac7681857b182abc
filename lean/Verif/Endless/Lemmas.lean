import Verif.Endless.Spec

namespace Verif.Endless

open Verif.Inspect (Proc num wrap readMem readLinkMap)
open Verif.Ptrace (readString readStringLoop readLong)

theorem nodup_length {B : Nat} {l : List Nat} (hn : l.Nodup) (h : ∀ x ∈ l, x < B) : l.length ≤ B := by
  induction B generalizing l with
  | zero =>
    cases l with
    | nil => simp
    | cons x l => exact absurd (h x List.mem_cons_self) (by omega)
  | succ B ih =>
    by_cases hm : B ∈ l
    · have h1 := ih (l := l.erase B) (hn.erase B) (fun x hx => by
        have h2 := (List.Nodup.mem_erase_iff hn).mp hx
        have h3 := h x h2.2
        have h4 := h2.1
        omega)
      rw [List.length_erase_of_mem hm] at h1
      omega
    · have := ih hn (fun x hx => by
        have h3 := h x hx
        by_cases e : x = B
        · exact absurd (e ▸ hx) hm
        · omega)
      omega

theorem Reach.trans {R : Nat → Nat → Prop} {a b c : Nat} (h1 : Reach R a b) (h2 : Reach R b c) : Reach R a c := by
  induction h1 with
  | refl => exact h2
  | step r _ ih => exact .step r (ih h2)

theorem Circular.next {R : Nat → Nat → Prop} {a : Nat} (h : Circular R a) : ∃ b, R a b ∧ Circular R b := by
  obtain ⟨b, c, h1, h2, h3⟩ := h
  cases h1 with
  | refl => exact ⟨c, h2, a, c, h3, h2, h3⟩
  | step r h1 => exact ⟨_, r, b, c, h1, h2, h3⟩

/-- A loop that goes on with the next thing does not end if there is always a next thing. -/
theorem endless {R : Nat → Nat → Prop} (P : Nat → Nat → Prop) (h0 : ∀ a, ¬ P 0 a)
    (hs : ∀ fuel a b, R a b → P (fuel + 1) a → P fuel b) (fuel a : Nat) (h : Circular R a) : ¬ P fuel a := by
  induction fuel generalizing a with
  | zero => exact h0 a
  | succ fuel ih =>
    obtain ⟨b, hr, hc⟩ := h.next
    exact fun hp => ih b hc (hs fuel a b hr hp)

theorem ends_aux {R : Nat → Nat → Prop} {B S : Nat} (hB : ∀ a b, R a b → a < B) (P : Nat → Nat → Prop)
    (hs : ∀ fuel a, S ≤ fuel → (∀ b, R a b → P fuel b) → P (fuel + 1) a) (n : Nat) (seen : List Nat) (a : Nat)
    (hn : seen.Nodup) (hlt : ∀ x ∈ seen, x < B) (hl : ∀ x ∈ seen, ∃ w, R x w ∧ Reach R w a) (hlen : seen.length + n = B)
    (hc : ¬ Circular R a) (fuel : Nat) (hf : n + S + 1 ≤ fuel) : P fuel a := by
  induction n generalizing seen a fuel with
  | zero =>
    obtain ⟨f, rfl⟩ : ∃ f, fuel = f + 1 := ⟨fuel - 1, by omega⟩
    refine hs f a (by omega) fun b hr => ?_
    have hm : a ∉ seen := fun hm => by
      obtain ⟨w, h1, h2⟩ := hl a hm
      exact hc ⟨a, w, .refl a, h1, h2⟩
    have := nodup_length (l := a :: seen) (List.nodup_cons.mpr ⟨hm, hn⟩) (fun x hx => by
      rcases List.mem_cons.mp hx with h | h
      · exact h ▸ hB a b hr
      · exact hlt x h)
    simp at this
    omega
  | succ n ih =>
    obtain ⟨f, rfl⟩ : ∃ f, fuel = f + 1 := ⟨fuel - 1, by omega⟩
    refine hs f a (by omega) fun b hr => ?_
    have hm : a ∉ seen := fun hm => by
      obtain ⟨w, h1, h2⟩ := hl a hm
      exact hc ⟨a, w, .refl a, h1, h2⟩
    refine ih (a :: seen) b (List.nodup_cons.mpr ⟨hm, hn⟩) ?_ ?_ (by simp; omega) ?_ f (by omega)
    · intro x hx
      rcases List.mem_cons.mp hx with h | h
      · exact h ▸ hB a b hr
      · exact hlt x h
    · intro x hx
      rcases List.mem_cons.mp hx with h | h
      · subst h; exact ⟨b, hr, .refl b⟩
      · obtain ⟨w, h1, h2⟩ := hl x h
        exact ⟨w, h1, h2.trans (.step hr (.refl b))⟩
    · rintro ⟨y, z, h1, h2, h3⟩
      exact hc ⟨y, z, .step hr h1, h2, h3⟩

/-- It does end if it never comes back, there being only so many things. -/
theorem ends {R : Nat → Nat → Prop} {B S : Nat} (hB : ∀ a b, R a b → a < B) (P : Nat → Nat → Prop)
    (hs : ∀ fuel a, S ≤ fuel → (∀ b, R a b → P fuel b) → P (fuel + 1) a) (a : Nat) (hc : ¬ Circular R a) (fuel : Nat)
    (hf : B + S + 1 ≤ fuel) : P fuel a :=
  ends_aux hB P hs B [] a .nil (by simp) (by simp) (by simp) hc fuel hf

/-! ### Strings -/

theorem readStringLoop_more (rd : Nat → Option (List UInt8)) (fuel cap a : Nat) (buf : List UInt8) (r : Ptrace.ReadResult)
    (h : readStringLoop rd fuel cap a buf = some r) (k : Nat) : readStringLoop rd (fuel + k) cap a buf = some r := by
  induction fuel generalizing cap a buf with
  | zero => cases h
  | succ fuel ih =>
    rw [show fuel + 1 + k = (fuel + k) + 1 by omega]
    rw [readStringLoop] at h ⊢
    generalize (if cap ≤ buf.length / 8 then cap * 2 else cap) = cap' at h ⊢
    by_cases h1 : cap' ≤ buf.length / 8
    · rw [if_pos h1] at h ⊢; exact h
    · rw [if_neg h1] at h ⊢
      cases hr : rd a with
      | none => rw [hr] at h; exact h
      | some w =>
        rw [hr] at h
        dsimp only at h ⊢
        by_cases h2 : Ptrace.hasbytezero (Ptrace.asLong w) = true
        · rw [if_pos h2] at h ⊢; exact h
        · rw [if_neg h2] at h ⊢; exact ih _ _ _ h

/-- Results do not depend on the number of rounds. -/
theorem readString_unique {rd : Nat → Bool} {m : Mem} {a f g : Nat} {r s : Ptrace.ReadResult}
    (h1 : readString rd m a f = some r) (h2 : readString rd m a g = some s) : r = s := by
  have e1 := readStringLoop_more _ f 8 a [] r h1 g
  have e2 := readStringLoop_more _ g 8 a [] s h2 f
  rw [Nat.add_comm] at e2
  rw [e1] at e2
  exact Option.some.inj e2

theorem readLong_top {p : Proc} {B a : Nat} (hb : Bounded p B) (h : B ≤ a) : readLong p.readable p.mem a = none := by
  unfold readLong
  rw [if_neg]
  intro hall
  have := List.all_eq_true.mp hall 0 (by simp)
  rw [Nat.add_zero, hb.2 a h] at this
  cases this

theorem readStringLoop_ends {p : Proc} {B : Nat} (hb : Bounded p B) (n fuel cap a : Nat) (buf : List UInt8) (hn : B ≤ a + n)
    (hf : n < fuel) : readStringLoop (readLong p.readable p.mem) fuel cap a buf ≠ none := by
  induction n generalizing fuel cap a buf with
  | zero =>
    obtain ⟨f, rfl⟩ : ∃ f, fuel = f + 1 := ⟨fuel - 1, by omega⟩
    rw [readStringLoop, readLong_top hb (by omega)]
    generalize (if cap ≤ buf.length / 8 then cap * 2 else cap) = cap'
    by_cases h1 : cap' ≤ buf.length / 8
    · rw [if_pos h1]; simp
    · rw [if_neg h1]; simp
  | succ n ih =>
    obtain ⟨f, rfl⟩ : ∃ f, fuel = f + 1 := ⟨fuel - 1, by omega⟩
    rw [readStringLoop]
    generalize (if cap ≤ buf.length / 8 then cap * 2 else cap) = cap'
    by_cases h1 : cap' ≤ buf.length / 8
    · rw [if_pos h1]; simp
    · rw [if_neg h1]
      cases readLong p.readable p.mem a with
      | none => simp
      | some w =>
        dsimp only
        by_cases h2 : Ptrace.hasbytezero (Ptrace.asLong w) = true
        · rw [if_pos h2]; simp
        · rw [if_neg h2]; exact ih f _ _ _ (by omega) (by omega)

theorem readString_ends {p : Proc} {B : Nat} (hb : Bounded p B) (a fuel : Nat) (hf : B < fuel) :
    readString p.readable p.mem a fuel ≠ none :=
  readStringLoop_ends hb B fuel 8 a [] (by omega) hf

theorem readMem_top {p : Proc} {B a n : Nat} (hb : Bounded p B) (hn : 0 < n) {s : List UInt8} (h : readMem p a n = some s) : a < B := by
  apply Classical.byContradiction
  intro hlt
  unfold readMem at h
  by_cases hall : ((List.range n).all fun i => p.readable (a + i)) = true
  · have := List.all_eq_true.mp hall 0 (by simp; omega)
    rw [Nat.add_zero, hb.2 a (by omega)] at this
    cases this
  · rw [if_neg hall] at h; cases h

/-! ### The link map -/

open Verif.Inspect in
theorem libsLoop_ends {p : Proc} {B : Nat} (hb : Bounded p B) (a : Nat) (hc : ¬ Circular (NextObject p) a) (fuel : Nat)
    (hf : B + B + 1 ≤ fuel) (acc : List Obj) : libsLoop p fuel a acc ≠ none := by
  refine ends (R := NextObject p) (B := B) (S := B) ?_ (fun fuel a => ∀ acc, libsLoop p fuel a acc ≠ none) ?_ a hc fuel hf acc
  · rintro a b ⟨_, l, hl, _⟩
    unfold readLinkMap at hl
    cases hm : readMem p a 40 with
    | none => rw [hm] at hl; cases hl
    | some s => exact readMem_top hb (by omega) hm
  · intro fuel a hS hnext acc
    rw [libsLoop]
    by_cases h0 : a = 0
    · rw [if_pos h0]; simp
    · rw [if_neg h0]
      cases hl : readLinkMap p a with
      | none => simp
      | some l =>
        simp only
        cases hr : readString p.readable p.mem l.name (fuel + 1) with
        | none => exact absurd hr (readString_ends hb _ _ (by omega))
        | some r =>
          cases r with
          | ok buf => exact hnext l.next ⟨h0, l, hl, ⟨_, _, hr⟩, rfl⟩ _
          | fail => simp
          | overflow => simp

open Verif.Inspect in
theorem libsLoop_endless {p : Proc} (a : Nat) (hc : Circular (NextObject p) a) (fuel : Nat) (acc : List Obj) :
    libsLoop p fuel a acc = none := by
  have := endless (R := NextObject p) (fun fuel a => ∃ acc, libsLoop p fuel a acc ≠ none) (by
      rintro a ⟨acc, h⟩; exact h rfl) (by
      rintro fuel a b ⟨h0, l, hl, ⟨g, buf, hn⟩, hb⟩ ⟨acc, h⟩
      rw [libsLoop, if_neg h0, hl] at h
      simp only at h
      cases hr : readString p.readable p.mem l.name (fuel + 1) with
      | none => rw [hr] at h; exact absurd rfl h
      | some r =>
        have := readString_unique hr hn
        subst this
        rw [hr] at h
        subst hb
        exact ⟨_, h⟩) fuel a hc
  exact Classical.byContradiction fun h => this ⟨acc, h⟩

/-! ### Applied patches -/

theorem fetch_ends {p : Proc} {B : Nat} (hb : Bounded p B) (a fuel : Nat) (hf : B < fuel) : Status.fetch p a fuel ≠ none := by
  unfold Status.fetch
  by_cases h0 : a = 0
  · rw [if_pos h0]; simp
  · rw [if_neg h0]
    cases hr : readString p.readable p.mem a fuel with
    | none => exact absurd hr (readString_ends hb _ _ hf)
    | some r => cases r <;> simp

theorem readApplied_ends {p : Proc} {B : Nat} (hb : Bounded p B) (version a : Nat) (hc : ¬ Circular (NextPatch p version) a) (fuel : Nat)
    (hf : B + (B + 1) + 1 ≤ fuel) : Status.readApplied p version fuel a ≠ none := by
  refine ends (R := NextPatch p version) (B := B) (S := B + 1) ?_ (fun fuel a => Status.readApplied p version fuel a ≠ none) ?_ a hc fuel hf
  · rintro a b ⟨_, s, hs, _⟩
    exact readMem_top hb (by unfold Status.patchSize; split <;> omega) hs
  · intro fuel a hS hnext
    rw [Status.readApplied]
    by_cases h0 : a = 0
    · rw [if_pos h0]; simp
    · rw [if_neg h0]
      cases hm : readMem p a (Status.patchSize version) with
      | none => simp
      | some s =>
        simp only
        have h1 := fetch_ends hb (num s 32 8) fuel (by omega)
        have h2 := fetch_ends hb (num s 40 8) fuel (by omega)
        have h3 := hnext (num s 56 8) ⟨h0, s, hm, rfl⟩
        cases e1 : Status.fetch p (num s 32 8) fuel with
        | none => exact absurd e1 h1
        | some x =>
          cases e2 : Status.fetch p (num s 40 8) fuel with
          | none => exact absurd e2 h2
          | some y =>
            cases e3 : Status.readApplied p version fuel (num s 56 8) with
            | none => exact absurd e3 h3
            | some z => simp

theorem readApplied_endless {p : Proc} (version a : Nat) (hc : Circular (NextPatch p version) a) (fuel : Nat) :
    Status.readApplied p version fuel a = none := by
  have := endless (R := NextPatch p version) (fun fuel a => Status.readApplied p version fuel a ≠ none) (by
      intro a h; exact h rfl) (by
      rintro fuel a b ⟨h0, s, hs, hb⟩ h e
      apply h
      rw [Status.readApplied, if_neg h0, hs]
      simp only
      rw [hb, e]
      cases Status.fetch p (num s 32 8) fuel <;> cases Status.fetch p (num s 40 8) fuel <;> rfl) fuel a hc
  exact Classical.byContradiction fun h => this h

/-! ### Notes -/

theorem noteLoop_ends {p : Proc} {B : Nat} (hb : Bounded p B) (end_ a : Nat) (hc : ¬ Circular (NextNote p end_) a) (fuel : Nat)
    (hf : B + 0 + 1 ≤ fuel) : noteLoop p fuel a end_ ≠ none := by
  refine ends (R := NextNote p end_) (B := B) (S := 0) ?_ (fun fuel a => noteLoop p fuel a end_ ≠ none) ?_ a hc fuel hf
  · rintro a b ⟨s, hs, _⟩
    exact readMem_top hb (by omega) hs
  · intro fuel a _ hnext
    rw [noteLoop]
    cases hm : readMem p a 12 with
    | none => simp
    | some s =>
      simp only
      by_cases h3 : num s 8 4 = 3
      · rw [if_pos h3]; simp
      · rw [if_neg h3]
        by_cases hlt : wrap (a + (BuildId.toolAlign (num s 4 4) + BuildId.toolAlign (num s 0 4) + 12) % 2 ^ 32) < end_
        · rw [if_pos hlt]; exact hnext _ ⟨s, hm, h3, rfl, hlt⟩
        · rw [if_neg hlt]; simp

theorem noteLoop_endless {p : Proc} (end_ a : Nat) (hc : Circular (NextNote p end_) a) (fuel : Nat) :
    noteLoop p fuel a end_ = none := by
  have := endless (R := NextNote p end_) (fun fuel a => noteLoop p fuel a end_ ≠ none) (by
      intro a h; exact h rfl) (by
      rintro fuel a b ⟨s, hs, h3, hb, hlt⟩ h
      rw [noteLoop, hs] at h
      simp only at h
      rw [if_neg h3, ← hb, if_pos hlt] at h
      exact h) fuel a hc
  exact Classical.byContradiction fun h => this h

theorem next_note_le {p : Proc} {B end_ a b : Nat} (hb : Bounded p B) (h : NextNote p end_ a b) : a ≤ b := by
  obtain ⟨s, hs, _, rfl, _⟩ := h
  have h1 := readMem_top hb (by omega) hs
  have h2 := hb.1
  have h3 := Nat.mod_lt (BuildId.toolAlign (num s 4 4) + BuildId.toolAlign (num s 0 4) + 12) (show 0 < 2 ^ 32 by omega)
  unfold wrap
  rw [Nat.mod_eq_of_lt (by omega)]
  omega

theorem reach_note_le {p : Proc} {B end_ a b : Nat} (hb : Bounded p B) (h : Reach (NextNote p end_) a b) : a ≤ b := by
  induction h with
  | refl => exact Nat.le_refl _
  | step r _ ih => exact Nat.le_trans (next_note_le hb r) ih

theorem circular_note {p : Proc} {B end_ a : Nat} (hb : Bounded p B) :
    Circular (NextNote p end_) a ↔ ∃ b, Reach (NextNote p end_) a b ∧ NextNote p end_ b b := by
  constructor
  · rintro ⟨b, c, h1, h2, h3⟩
    have := next_note_le hb h2
    have := reach_note_le hb h3
    obtain rfl : b = c := by omega
    exact ⟨b, h1, h2⟩
  · rintro ⟨b, h1, h2⟩
    exact ⟨b, b, h1, h2, .refl b⟩

/-! ### Everything else ends -/

open Verif.Inspect

theorem debugLoop_ends {p : Proc} {B : Nat} (hb : Bounded p B) (n fuel a : Nat) (hn : B ≤ a + n) (hf : n < fuel) : debugLoop p fuel a ≠ none := by
  induction n generalizing fuel a with
  | zero =>
    obtain ⟨f, rfl⟩ : ∃ f, fuel = f + 1 := ⟨fuel - 1, by omega⟩
    rw [debugLoop]
    cases hm : readMem p a 16 with
    | none => simp
    | some s => exact absurd (readMem_top hb (by omega) hm) (by omega)
  | succ n ih =>
    obtain ⟨f, rfl⟩ : ∃ f, fuel = f + 1 := ⟨fuel - 1, by omega⟩
    rw [debugLoop]
    cases hm : readMem p a 16 with
    | none => simp
    | some s =>
      dsimp only
      by_cases h1 : num s 0 8 = 0
      · rw [if_pos h1]; simp
      · rw [if_neg h1]
        by_cases h2 : num s 0 8 = 21
        · rw [if_pos h2]; simp
        · rw [if_neg h2]; exact ih f _ (by omega) (by omega)

theorem digMainLinkMap_ends {p : Proc} {B : Nat} (hb : Bounded p B) (dyn fuel : Nat) (hf : B < fuel) : digMainLinkMap p dyn fuel ≠ none := by
  unfold digMainLinkMap
  have := debugLoop_ends hb B fuel dyn (by omega) hf
  cases h : debugLoop p fuel dyn with
  | none => exact absurd h this
  | some r =>
    cases r with
    | error e => simp
    | ok d =>
      dsimp only
      cases readMem p (wrap (d + 8)) 8 with
      | none => simp
      | some s => dsimp only; cases readLinkMap p (num s 0 8) <;> simp

theorem dynLoop_ends {p : Proc} {B : Nat} (hb : Bounded p B) (n fuel a x y z : Nat) (hn : B ≤ a + n) (hf : n < fuel) : dynLoop p fuel a x y z ≠ none := by
  induction n generalizing fuel a x y z with
  | zero =>
    obtain ⟨f, rfl⟩ : ∃ f, fuel = f + 1 := ⟨fuel - 1, by omega⟩
    rw [dynLoop]
    cases hm : readMem p a 16 with
    | none => simp
    | some s => exact absurd (readMem_top hb (by omega) hm) (by omega)
  | succ n ih =>
    obtain ⟨f, rfl⟩ : ∃ f, fuel = f + 1 := ⟨fuel - 1, by omega⟩
    rw [dynLoop]
    cases hm : readMem p a 16 with
    | none => simp
    | some s =>
      dsimp only
      generalize (if num s 0 8 = 6 then num s 8 8 else x) = x'
      generalize (if num s 0 8 = 5 then num s 8 8 else y) = y'
      generalize (if num s 0 8 = 4 then num s 8 8 else z) = z'
      by_cases h1 : x' ≠ 0 ∧ y' ≠ 0 ∧ z' ≠ 0
      · rw [if_pos h1]; simp
      · rw [if_neg h1]
        by_cases h2 : num s 0 8 = 0
        · rw [if_pos h2]; simp
        · rw [if_neg h2]; exact ih f _ _ _ _ (by omega) (by omega)

theorem objLoop_ends {p : Proc} {B : Nat} (hb : Bounded p B) (bias fuel : Nat) (hf : B < fuel) (k a x y z : Nat) (ran : Bool) :
    objLoop p bias fuel k a x y z ran ≠ none := by
  induction k generalizing a x y z ran with
  | zero => simp [objLoop]
  | succ k ih =>
    rw [objLoop]
    cases hm : readMem p a 56 with
    | none => simp
    | some s =>
      dsimp only
      by_cases h1 : num s 0 4 = 2 ∧ ran = false
      · rw [if_pos h1]
        cases h : dynLoop p fuel (wrap (bias + num s 16 8)) x y z with
        | none => exact absurd h (dynLoop_ends hb B fuel _ _ _ _ (by omega) hf)
        | some r =>
          cases r with
          | none => simp
          | some t => obtain ⟨x', y', z', r'⟩ := t; exact ih _ _ _ _ _
      · rw [if_neg h1]; exact ih _ _ _ _ _

theorem parseHeaders_ends {p : Proc} {B : Nat} (hb : Bounded p B) (l : LinkMap) (fuel : Nat) (hf : B < fuel) : parseHeaders p l fuel ≠ none := by
  unfold parseHeaders
  by_cases h0 : l.name = 0
  · rw [if_pos h0]; simp
  · rw [if_neg h0]
    dsimp only
    generalize (if l.addr ≠ 0 then l.addr else p.ehdr0) = ehdr
    cases readMem p ehdr 64 with
    | none => simp
    | some e =>
      dsimp only
      by_cases h1 : num e 54 2 ≠ 56
      · rw [if_pos h1]; simp
      · rw [if_neg h1]
        cases h : objLoop p l.addr fuel (num e 56 2) (wrap (ehdr + num e 32 8)) 0 0 0 false with
        | none => exact absurd h (objLoop_ends hb _ _ hf _ _ _ _ _ _)
        | some r =>
          cases r with
          | none => simp
          | some t =>
            obtain ⟨x, y, z⟩ := t
            dsimp only
            by_cases h2 : z ≠ 0
            · rw [if_pos h2]; cases readMem p (wrap (z + 4)) 4 <;> simp
            · rw [if_neg h2]; simp

theorem objSyms_ends {p : Proc} {B : Nat} (hb : Bounded p B) (o : Obj) (fuel : Nat) (hf : B < fuel) : objSyms p o fuel ≠ none := by
  unfold objSyms
  cases h : parseHeaders p o.map fuel with
  | none => exact absurd h (parseHeaders_ends hb _ _ hf)
  | some r => cases r <;> simp

theorem otherLoop_ends {p : Proc} {B : Nat} (hb : Bounded p B) (fuel : Nat) (hf : B < fuel) (os : List Obj) (best : Obj × Syms) :
    otherLoop p fuel os best ≠ none := by
  induction os generalizing best with
  | nil => simp [otherLoop]
  | cons o os ih =>
    rw [otherLoop]
    by_cases h1 : SymLoad.strstr o.name pulpName = true
    · rw [if_pos h1]
      cases h : objSyms p o fuel with
      | none => exact absurd h (objSyms_ends hb _ _ hf)
      | some s => exact ih _
    · rw [if_neg h1]; exact ih _

theorem parseLibs_ends {p : Proc} {B : Nat} (hb : Bounded p B) (main : LinkMap) (hc : ¬ Circular (NextObject p) main.next) (fuel : Nat)
    (hf : B + B + 1 ≤ fuel) : parseLibs p main fuel ≠ none := by
  unfold parseLibs
  cases h : libsLoop p fuel main.next [] with
  | none => exact absurd h (libsLoop_ends hb _ hc _ hf _)
  | some objs =>
    dsimp only
    cases objs.find? (fun o => SymLoad.strstr o.name pulpName) with
    | none => simp
    | some o =>
      dsimp only
      cases h1 : objSyms p o fuel with
      | none => exact absurd h1 (objSyms_ends hb _ _ (by omega))
      | some s =>
        dsimp only
        cases h2 : otherLoop p fuel (objs.filter (· ≠ o)) (o, s) with
        | none => exact absurd h2 (otherLoop_ends hb _ (by omega) _ _)
        | some t => simp

theorem debugLoop_more {p : Proc} {fuel a : Nat} {r : Except Err Nat} (h : debugLoop p fuel a = some r) (k : Nat) :
    debugLoop p (fuel + k) a = some r := by
  induction fuel generalizing a with
  | zero => cases h
  | succ fuel ih =>
    rw [show fuel + 1 + k = (fuel + k) + 1 by omega]
    rw [debugLoop] at h ⊢
    cases hm : readMem p a 16 with
    | none => rw [hm] at h; exact h
    | some s =>
      rw [hm] at h
      dsimp only at h ⊢
      by_cases h1 : num s 0 8 = 0
      · rw [if_pos h1] at h ⊢; exact h
      · rw [if_neg h1] at h ⊢
        by_cases h2 : num s 0 8 = 21
        · rw [if_pos h2] at h ⊢; exact h
        · rw [if_neg h2] at h ⊢; exact ih h

theorem digMainLinkMap_more {p : Proc} {dyn fuel : Nat} {r : Except Err LinkMap} (h : digMainLinkMap p dyn fuel = some r) (k : Nat) :
    digMainLinkMap p dyn (fuel + k) = some r := by
  unfold digMainLinkMap at h ⊢
  cases hd : debugLoop p fuel dyn with
  | none => rw [hd] at h; cases h
  | some d => rw [hd] at h; rw [debugLoop_more hd]; exact h

theorem digMainLinkMap_unique {p : Proc} {dyn f g : Nat} {r s : Except Err LinkMap} (h1 : digMainLinkMap p dyn f = some r)
    (h2 : digMainLinkMap p dyn g = some s) : r = s := by
  have e1 := digMainLinkMap_more h1 g
  have e2 := digMainLinkMap_more h2 f
  rw [Nat.add_comm] at e2
  rw [e1] at e2
  exact Option.some.inj e2

end Verif.Endless
