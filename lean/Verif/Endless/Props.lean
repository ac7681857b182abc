import Verif.Endless.Lemmas
import Verif.Inspect.Props
import Verif.Status.Props

namespace Verif.Endless

open Verif.Inspect (Proc num wrap readMem readLinkMap digLoadBias digMainLinkMap inspect)

/-- **C199** (partial): reading a process – program headers, dynamic sections, link map, names, symbols – comes to a result,
whatever is in its memory, exactly if its link map does not lead back to itself.  (Missing for C199: that it comes to a result
also then.) -/
theorem C199_inspect_partial {p : Proc} {top : Nat} (hb : Bounded p top) :
    (∃ fuel r, inspect p fuel = some r) ↔
    ¬ ∃ bias dyn main fuel, digLoadBias p = .ok (bias, dyn) ∧ digMainLinkMap p dyn fuel = some (.ok main) ∧
      Circular (NextObject p) main.next := by
  constructor
  · rintro ⟨fuel, r, h⟩ ⟨bias, dyn, main, g, h1, h2, hc⟩
    unfold inspect at h
    rw [h1] at h
    dsimp only at h
    cases h3 : digMainLinkMap p dyn fuel with
    | none => rw [h3] at h; cases h
    | some s =>
      have := digMainLinkMap_unique h3 h2
      subst this
      rw [h3] at h
      dsimp only at h
      have h4 : Inspect.parseLibs p main fuel = none := by
        unfold Inspect.parseLibs
        rw [libsLoop_endless _ hc]
      rw [h4] at h
      cases h
  · intro hn
    have key : inspect p (top + top + 1) ≠ none := by
      unfold inspect
      cases h1 : digLoadBias p with
      | error e => simp
      | ok x =>
        obtain ⟨bias, dyn⟩ := x
        dsimp only
        cases h2 : digMainLinkMap p dyn (top + top + 1) with
        | none => exact absurd h2 (digMainLinkMap_ends hb _ _ (by omega))
        | some s =>
          cases s with
          | error e => simp
          | ok main =>
            dsimp only
            have hc : ¬ Circular (NextObject p) main.next := fun hc => hn ⟨bias, dyn, main, _, h1, h2, hc⟩
            cases h3 : Inspect.parseLibs p main (top + top + 1) with
            | none => exact absurd h3 (parseLibs_ends hb main hc _ (by omega))
            | some t =>
              cases t with
              | error e => simp
              | ok y =>
                obtain ⟨objs, o, s⟩ := y
                dsimp only
                cases readMem p ((s[2]?.getD none).getD 0) 16 with
                | none => simp
                | some b => dsimp only; by_cases h4 : num b 0 1 = 0 <;> simp [h4]
    cases h : inspect p (top + top + 1) with
    | none => exact absurd h key
    | some r => exact ⟨_, r, h⟩

/-- **C199** (partial): reading the live patches of a process, for which it is stopped, comes to a result exactly if the list
does not lead back to itself. -/
theorem C199_patches_partial {p : Proc} {top : Nat} (hb : Bounded p top) (l : Status.Libpulp) :
    (∃ fuel r, Status.readState p l fuel = some r) ↔
    ¬ ∃ s, l.state ≠ 0 ∧ readMem p l.state 16 = some s ∧ Circular (NextPatch p l.version) (num s 8 8) := by
  constructor
  · rintro ⟨fuel, r, h⟩ ⟨s, h0, hs, hc⟩
    unfold Status.readState at h
    rw [if_neg h0, hs] at h
    dsimp only at h
    rw [readApplied_endless _ _ hc] at h
    cases h
  · intro hn
    have key : Status.readState p l (top + (top + 1) + 1) ≠ none := by
      unfold Status.readState
      by_cases h0 : l.state = 0
      · rw [if_pos h0]; simp
      · rw [if_neg h0]
        cases hs : readMem p l.state 16 with
        | none => simp
        | some s => exact readApplied_ends hb _ _ (fun hc => hn ⟨s, h0, hs, hc⟩) _ (Nat.le_refl _)
    cases h : Status.readState p l (top + (top + 1) + 1) with
    | none => exact absurd h key
    | some r => exact ⟨_, r, h⟩

/-- **C199** (partial): looking for the build id among the notes of an object comes to a result exactly if no note is reached
whose parts have lengths that add up to nothing. -/
theorem C199_notes_partial {p : Proc} {top : Nat} (hb : Bounded p top) (a end_ : Nat) :
    (∃ fuel r, noteLoop p fuel a end_ = some r) ↔ ¬ ∃ b, Reach (NextNote p end_) a b ∧ NextNote p end_ b b := by
  rw [← circular_note hb]
  constructor
  · rintro ⟨fuel, r, h⟩ hc
    rw [noteLoop_endless _ _ hc] at h
    cases h
  · intro hn
    have key := noteLoop_ends hb end_ a hn _ (Nat.le_refl _)
    cases h : noteLoop p (top + 0 + 1) a end_ with
    | none => exact absurd h key
    | some r => exact ⟨_, r, h⟩

/-! ### Processes -/

/-- As in `Verif.Inspect`, but the last entry of the link map leads to itself. -/
def demoRing : Proc :=
  { Inspect.demoProc 1 false with mem := fun a => if 4624 ≤ a ∧ a < 4632 then (Verif.le 8 4600)[a - 4624]! else (Inspect.demoProc 1 false).mem a }

theorem demo_bounded (r : UInt8) (g : Bool) : Bounded (Inspect.demoProc r g) 12288 := ⟨by omega, fun a h => by simp [Inspect.demoProc]; omega⟩

theorem demo_ring_bounded : Bounded demoRing 12288 := ⟨by omega, fun a h => by simp [demoRing, Inspect.demoProc]; omega⟩

theorem demo_ring : Circular (NextObject demoRing) 4600 :=
  ⟨4600, 4600, .refl _, ⟨by omega, ⟨8192, 4710, 4600⟩, by decide +kernel,
    ⟨3, "/l/libpulp.so.0".toUTF8.toList ++ [0], by decide +kernel⟩, rfl⟩, .refl _⟩

instance {α β : Type} [DecidableEq α] [DecidableEq β] : DecidableEq (Except α β)
  | .ok a, .ok b => if h : a = b then isTrue (h ▸ rfl) else isFalse fun e => h (Except.ok.inj e)
  | .error a, .error b => if h : a = b then isTrue (h ▸ rfl) else isFalse fun e => h (Except.error.inj e)
  | .ok _, .error _ => isFalse nofun
  | .error _, .ok _ => isFalse nofun

/-- **C199** is false: there is a process of which reading comes to no result. -/
theorem C199_inspect_never : ∃ p top, Bounded p top ∧ ∀ fuel, inspect p fuel = none := by
  refine ⟨demoRing, 12288, demo_ring_bounded, fun fuel => ?_⟩
  have h := mt (C199_inspect_partial demo_ring_bounded).mp (fun hn => hn ⟨4096, 4300, ⟨4096, 4700, 4600⟩, 3, by decide +kernel, by decide +kernel, demo_ring⟩)
  cases hi : inspect demoRing fuel with
  | none => rfl
  | some r => exact absurd ⟨fuel, r, hi⟩ h

/-- The process of `Verif.Inspect` has a link map that does not lead back to itself. -/
example : ¬ Circular (NextObject (Inspect.demoProc 1 false)) 4600 := by
  intro h
  obtain ⟨b, ⟨_, l, hl, _, rfl⟩, hc⟩ := h.next
  rw [show readLinkMap (Inspect.demoProc 1 false) 4600 = some ⟨8192, 4710, 0⟩ by decide +kernel] at hl
  cases hl
  obtain ⟨_, ⟨h0, _⟩, _⟩ := hc.next
  exact h0 rfl

/-- As in `Verif.Status`, but the second patch leads back to the first. -/
def demoPatchRing : Proc :=
  { Status.demo with mem := fun a => if 4356 ≤ a ∧ a < 4364 then (Verif.le 8 4200)[a - 4356]! else Status.demo.mem a }

theorem demo_patch_ring_bounded : Bounded demoPatchRing 8192 := ⟨by omega, fun a h => by simp [demoPatchRing, Status.demo]; omega⟩

/-- **C199** is false: there is a process of which the list of live patches is read for ever. -/
theorem C199_patches_never : ∃ p top l, Bounded p top ∧ ∀ fuel, Status.readState p l fuel = none := by
  refine ⟨demoPatchRing, 8192, Status.demoPulp, demo_patch_ring_bounded, fun fuel => ?_⟩
  have h := mt (C199_patches_partial demo_patch_ring_bounded Status.demoPulp).mp (fun hn => hn
    ⟨Verif.le 8 1 ++ Verif.le 8 4200, by decide, by decide +kernel, 4200, 4300, .refl _,
      ⟨by decide +kernel, _, rfl, by decide +kernel⟩, .step (b := 4200) ⟨by decide, _, rfl, by decide +kernel⟩ (.refl _)⟩)
  cases hi : Status.readState demoPatchRing Status.demoPulp fuel with
  | none => rfl
  | some r => exact absurd ⟨fuel, r, hi⟩ h

/-- An object with one note, of no name and of 4294967284 bytes. -/
def demoNote : Proc where
  readable a := decide (4096 ≤ a ∧ a < 8192)
  mem a := (Verif.le 4 0 ++ Verif.le 4 4294967284 ++ Verif.le 4 1)[a - 4096]?.getD 0
  auxv := []
  ehdr0 := 0

theorem demo_note_bounded : Bounded demoNote 8192 := ⟨by omega, fun a h => by simp [demoNote]; omega⟩

/-- **C199** is false: there is an object in which the build id is looked for for ever. -/
theorem C199_notes_never : ∃ p top a end_, Bounded p top ∧ ∀ fuel, noteLoop p fuel a end_ = none := by
  refine ⟨demoNote, 8192, 4096, 4108, demo_note_bounded, fun fuel => ?_⟩
  have h := mt (C199_notes_partial demo_note_bounded 4096 4108).mp (fun hn => hn
    ⟨4096, .refl _, Verif.le 4 0 ++ Verif.le 4 4294967284 ++ Verif.le 4 1, by decide +kernel, by decide +kernel, by decide +kernel, by decide⟩)
  cases hi : noteLoop demoNote fuel 4096 4108 with
  | none => rfl
  | some r => exact absurd ⟨fuel, r, hi⟩ h

example := C199_inspect_partial (demo_bounded 1 false)
example := C199_patches_partial demo_patch_ring_bounded Status.demoPulp
example := C199_notes_partial demo_note_bounded 4096 4108

end Verif.Endless
