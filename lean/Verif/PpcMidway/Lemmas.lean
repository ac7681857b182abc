import Verif.PpcMidway.Model
import Verif.Midway.Lemmas
import Verif.Power.Props

namespace Verif.PpcMidway

open Verif.Runtime (State Request Applied Detour Root Meta World Id top deact stackOf toPatch canRevert pathLen stateUpdate sanity resolveUnits
  resolved Emits InSet settle toggle perform_append perform_inSet stackOf_none stackOf_map gate_clean settle_clean settle_emits
  resolveUnits_some patchOf_resolved)
open Verif.Runtime.Spec (Patch track trackAll replacement healthy Idle patchOf refAddr)
open Verif.Midway (rw' rw'_mem actives top_actives actives_append actives_deact Between between_gradual between_mem gradual_tail
  apply_between versions_stack head?_versions perform_congr)
open Verif.Midway.Spec (versions Gradual Current)
open Verif.Power
open Power.Spec (callDest entryOff body inStub inPad Image Fits)
open Verif.InsnQueue (Req touches)
open Verif.InsnQueue.Spec (perform)

variable {t : List UInt8}

/-! ### the effect of writes on one pad -/

/-- On the pad of `f`, the writes `ws` do the same as the entry writes `xs`. -/
def Acts (t : List UInt8) (off f : Nat) (ws : List Req) (xs : List (Option Nat)) : Prop :=
  ∀ m m' : Mem, (∀ i, pad off f i → m i = m' i) → ∀ i, pad off f i → perform m ws i = perform m' (xs.flatMap (entryWrites t off f)) i

theorem Acts.append {off f w1 w2 x1 x2} (h1 : Acts t off f w1 x1) (h2 : Acts t off f w2 x2) : Acts t off f (w1 ++ w2) (x1 ++ x2) := by
  intro m m' h i hi
  rw [perform_append, List.flatMap_append, perform_append]
  exact h2 _ _ (fun j hj => h1 m m' h j hj) i hi

theorem Acts.self (off f) (xs : List (Option Nat)) : Acts t off f (xs.flatMap (entryWrites t off f)) xs :=
  fun _ _ h => perform_congr _ h

theorem Acts.one (off f) (x : Option Nat) : Acts t off f (entryWrites t off f x) [x] := by
  have := Acts.self (t := t) off f [x]
  simpa using this

theorem Acts.out {off f ws} {A : Nat → Prop} (h : InSet A ws) (ha : ∀ i, pad off f i → ¬ A i) : Acts t off f ws [] := by
  intro m m' hm i hi
  rw [perform_inSet h (ha i hi)]
  exact hm i hi

/-! ### reverting -/

theorem revertRoot_acts (htl : t.length = 44) {id f off} (hf : 52 ≤ f) (hf2 : f + 12 < 2 ^ 64) (done rest : List Detour) (s : State)
    (hp : Ppc.getBranchOffset s.mem f = some off) :
    ∃ ws, Emits s (revertRoot t id f done rest s).1 ws ∧ InSet (cell off f) ws ∧ Acts t off f ws (rw' id done rest) := by
  induction rest generalizing done s with
  | nil => exact ⟨[], Emits.refl _, by simp [InSet], Acts.self off f []⟩
  | cons d rest ih =>
    rw [revertRoot_cons]
    unfold rw'
    split
    · have h1 := (patchAddr_ready (s := s) (top (done ++ { d with active := false } :: rest)) htl hp hf2).1
      generalize hs1 : (patchAddr t s f ((top (done ++ { d with active := false } :: rest)).getD 0)
            (top (done ++ { d with active := false } :: rest)).isSome).1 = s1 at h1 ⊢
      have hm : s1.mem = s.mem := h1.mem
      obtain ⟨ws, j1, j2, j3⟩ := ih (done ++ [{ d with active := false }]) s1 (by rw [hm]; exact hp)
      exact ⟨_, h1.trans j1, (entryWrites_inSet htl hf).append j2, (Acts.one off f _).append j3⟩
    · exact ih _ s hp

theorem revertRoots_acts (htl : t.length = 44) {id} {F : Nat → Prop} {e0 : Nat → Nat} (hF : ∀ f, F f → 52 ≤ f ∧ f + 12 < 2 ^ 64)
    (hdis : ∀ f g i, F f → F g → pad (e0 f) f i → pad (e0 g) g i → f = g)
    (f) (hf : F f) (rs : List Root) (s : State) (hrs : ∀ r ∈ rs, F r.addr)
    (hready : ∀ g, F g → Ppc.getBranchOffset s.mem g = some (e0 g))
    (hnd : (rs.map (fun r => r.addr)).Nodup) :
    ∃ ws, Emits s (revertRoots t id rs s).1 ws ∧ Acts t (e0 f) f ws (rw' id [] (stackOf rs f)) := by
  induction rs generalizing s with
  | nil => exact ⟨[], Emits.refl _, Acts.self _ f []⟩
  | cons r rs ih =>
    simp only [revertRoots, stackOf]
    have hr := hrs r (by simp)
    obtain ⟨w1, a1, a2, a3⟩ := revertRoot_acts htl (id := id) (hF _ hr).1 (hF _ hr).2 [] r.detours s (hready r.addr hr)
    have hm := (revertRoot_fields t id r.addr [] r.detours s).2.2.2.1
    simp only [List.map_cons, List.nodup_cons] at hnd
    obtain ⟨w2, b1, b2⟩ := ih (revertRoot t id r.addr [] r.detours s).1 (fun r hr => hrs r (by simp [hr]))
      (by rw [hm]; exact hready) hnd.2
    refine ⟨w1 ++ w2, a1.trans b1, ?_⟩
    by_cases hfa : r.addr = f
    · rw [if_pos hfa]
      subst hfa
      rw [stackOf_none hnd.1] at b2
      simpa [rw'] using a3.append b2
    · rw [if_neg hfa]
      have : Acts t (e0 f) f w1 [] := Acts.out a2 (fun i hi hri => hfa (hdis _ _ i hr hf (cell_pad hri) hi))
      simpa using this.append b2

/-! ### versions -/

theorem good_versions {m₀ F s vm ps} (h : Good t m₀ F s vm ps) (f) : versions ps f = actives (stackOf s.roots f) := by
  rw [← h.shown, versions_stack, ← h.stacks f, List.map_map]
  rfl

theorem good_targets {m₀ F s vm ps} (h : Good t m₀ F s vm ps) (f g) (hg : g ∈ versions ps f) : g < 2 ^ 64 := by
  rw [good_versions h] at hg
  obtain ⟨d, hd, rfl⟩ := List.mem_map.mp hg
  exact h.targets f d (List.mem_filter.mp hd).1

theorem revertPatch_acts (htl : t.length = 44) {m₀ F slot s vm ps id} (hI : Image m₀ F slot) (hg : Good t m₀ F s vm ps)
    (hready : ∀ f, F f → Ppc.getBranchOffset s.mem f = some (entryOff m₀ f))
    (hc : canRevert s id = 0) (f) (hf : F f) :
    ∃ ws xs, Emits s (revertPatch t s id).1 ws ∧ Acts t (entryOff m₀ f) f ws xs ∧
      (versions (ps.filter (fun p => p.id ≠ id)) f).Sublist (versions ps f) ∧
      ∀ x ∈ xs, ∃ L, (versions (ps.filter (fun p => p.id ≠ id)) f).Sublist L ∧ L.Sublist (versions ps f) ∧ x = L.head? := by
  obtain ⟨ws, h1, h2⟩ := revertRoots_acts htl (id := id) hI.range (image_pads hI) f hf s.roots
    { s with univ := s.univ + 1 } (fun r hr => hg.inF r hr) hready hg.nodup
  obtain ⟨_, _, _, _, hg', _, _⟩ := revertPatch_ok htl hI hg hready hc
  have hst : stackOf (revertPatch t s id).1.roots f = (stackOf s.roots f).map (deact id) := by
    have f5 := (revertRoots_fields t id s.roots { s with univ := s.univ + 1 }).2.2.2.2
    show stackOf (revertRoots t id s.roots { s with univ := s.univ + 1 }).2 f = _
    rw [f5]; exact stackOf_map (fun ds => ds.map (deact id)) s.roots f rfl
  have hv := good_versions hg f
  have hv' := good_versions hg' f
  rw [hst] at hv'
  refine ⟨ws, rw' id [] (stackOf s.roots f), ?_, h2, ?_, ?_⟩
  · exact h1.of_fields rfl rfl rfl rfl rfl rfl
  · rw [hv, hv']; exact actives_deact _ _
  · intro x hx
    obtain ⟨pre, suf, h3, h4⟩ := rw'_mem _ _ hx
    refine ⟨actives (pre.map (deact id) ++ suf), ?_, ?_, by rw [h4, top_actives]; rfl⟩
    · rw [hv', h3, List.map_append, actives_append, actives_append]
      exact (List.Sublist.refl _).append (actives_deact _ _)
    · rw [hv, h3, actives_append, actives_append]
      exact (actives_deact _ _).append (List.Sublist.refl _)

theorem revertAllLoop_acts (htl : t.length = 44) {m₀ F slot base} (hI : Image m₀ F slot) (f) (hf : F f) (fuel : Nat) (rem : List Applied) (ret : Err)
    (s : State) (vm ps) (hg : Good t m₀ F s vm ps)
    (hready : ∀ f, F f → Ppc.getBranchOffset s.mem f = some (entryOff m₀ f))
    (s' a) (h : revertAllLoop t base fuel rem ret s = some (s', a)) :
    ∃ ws xs vm' ps', Emits s s' ws ∧ Acts t (entryOff m₀ f) f ws xs ∧ Good t m₀ F s' vm' ps' ∧
      (versions ps' f).Sublist (versions ps f) ∧
      ∀ x ∈ xs, ∃ L, (versions ps' f).Sublist L ∧ L.Sublist (versions ps f) ∧ x = L.head? := by
  induction fuel generalizing rem ret s vm ps with
  | zero =>
    cases rem with
    | nil =>
      simp only [revertAllLoop, Option.some.injEq, Prod.mk.injEq] at h
      obtain ⟨rfl, rfl⟩ := h
      exact ⟨[], [], vm, ps, Emits.refl _, Acts.self _ f [], hg, List.Sublist.refl _, by simp⟩
    | cons p rest => simp [revertAllLoop] at h
  | succ fuel ih =>
    cases rem with
    | nil =>
      simp only [revertAllLoop, Option.some.injEq, Prod.mk.injEq] at h
      obtain ⟨rfl, rfl⟩ := h
      exact ⟨[], [], vm, ps, Emits.refl _, Acts.self _ f [], hg, List.Sublist.refl _, by simp⟩
    | cons p rest =>
      by_cases hl : base.take pathLen = p.lib.take pathLen
      · by_cases hc : canRevert s p.id ≠ 0
        · rw [revertAllLoop_stuck hl hc] at h; simp at h
        have hc : canRevert s p.id = 0 := Decidable.not_not.mp hc
        rw [revertAllLoop, if_pos hl] at h
        simp only [hc, ne_eq, not_true_eq_false, if_false] at h
        obtain ⟨r0, w0, e0, i1, g1, u1, p1⟩ := revertPatch_ok htl hI hg hready hc
        obtain ⟨w1, x1, e1, a1, v1, l1⟩ := revertPatch_acts htl hI hg hready hc f hf
        generalize hrp : revertPatch t s p.id = rp at *
        obtain ⟨s1, e⟩ := rp
        simp only at r0 e1 g1 u1 h p1
        subst r0
        simp only [not_true_eq_false, if_false] at h
        obtain ⟨w2, x2, vm', ps', e2, a2, g2, v2, l2⟩ := ih rest 0 s1 _ _ g1 (by rw [e1.mem]; exact hready) h
        refine ⟨w1 ++ w2, x1 ++ x2, vm', ps', e1.trans e2, a1.append a2, g2, v2.trans v1, ?_⟩
        intro x hx
        rcases List.mem_append.mp hx with hx | hx
        · obtain ⟨L, b1, b2, b3⟩ := l1 x hx
          exact ⟨L, v2.trans b1, b2, b3⟩
        · obtain ⟨L, b1, b2, b3⟩ := l2 x hx
          exact ⟨L, b1, b2.trans v1, b3⟩
      · rw [revertAllLoop, if_neg hl] at h
        exact ih rest ret s vm ps hg hready h

/-! ### applying -/

theorem unitWrites_acts (htl : t.length = 44) {F : Nat → Prop} {e0 : Nat → Nat}
    (hF : ∀ f, F f → 52 ≤ f ∧ f + 12 < 2 ^ 64)
    (hdis : ∀ f g i, F f → F g → pad (e0 f) f i → pad (e0 g) g i → f = g)
    (f) (hf : F f) (res : List (Nat × Nat)) (hres : ∀ u ∈ res, F u.1) :
    Acts t (e0 f) f (res.flatMap fun u => entryWrites t (e0 u.1) u.1 (some u.2)) ((res.filter (fun u => u.1 = f)).map (fun u => some u.2)) := by
  induction res with
  | nil => exact Acts.self _ f []
  | cons u res ih =>
    have ih := ih (fun u hu => hres u (by simp [hu]))
    have hu := hres u (by simp)
    rw [List.flatMap_cons]
    by_cases huf : u.1 = f
    · rw [List.filter_cons_of_pos (by simpa using huf), List.map_cons]
      refine Acts.append (x1 := [some u.2]) ?_ ih
      rw [huf]
      exact Acts.one _ f (some u.2)
    · rw [List.filter_cons_of_neg (by simpa using huf)]
      exact Acts.append (x1 := []) (Acts.out (entryWrites_inSet htl (hF _ hu).1) (fun i hi hri => huf (hdis _ _ i hu hf (cell_pad hri) hi))) ih

/-! ### one request -/

theorem unhealthy_stays {fuel s r s' a} (hi : Idle s) (hs : serve t fuel s r = some (s', a)) (hh : healthy s'.err) :
    healthy s.err := by
  refine Classical.byContradiction fun hn => ?_
  have h1 : s.err ≠ ENONE := fun h => hn (Or.inl h)
  have h2 : s.err ≠ EUSRBLOCKED := fun h => hn (Or.inr h)
  have : s'.err = s.err := by
    cases r with
    | check id =>
      simp only [serve, Option.some.injEq, Prod.mk.injEq] at hs
      rw [← hs.1]
    | toggle =>
      simp only [serve, Option.some.injEq] at hs
      have e : (toggle s).1 = s' := by rw [hs]
      rw [← e]
      simp [toggle, h1, h2]
    | apply w m =>
      simp only [serve, Option.some.injEq, Prod.mk.injEq] at hs
      rw [← hs.1]
      unfold applyPatch
      rw [gate_clean hi]
      simp only [if_pos h1]
      rfl
    | revertAll w lib =>
      simp only [serve] at hs
      unfold revertAll at hs
      rw [gate_clean hi] at hs
      simp only [if_pos h1, Option.map_some, Option.some.injEq, Prod.mk.injEq] at hs
      rw [← hs.1]
      rfl
  rw [this] at hh
  exact hn hh

/-- What a request does to the pad of one function. -/
theorem serve_acts (htl : t.length = 44) {m₀ F slot s ps fuel r s' a} (hI : Image m₀ F slot) (hfit : Fits F slot r)
    (hinv : Inv t m₀ F slot s ps) (h : serve t fuel s r = some (s', a)) (hh : healthy s'.err) (f) (hf : F f) :
    ∃ xs : List (Option Nat), (∀ i, pad (entryOff m₀ f) f i → s'.mem i = perform s.mem (xs.flatMap (entryWrites t (entryOff m₀ f) f)) i) ∧
      ∀ x ∈ xs, ∃ L, Between (versions ps f) (versions (track ps r a) f) L ∧ x = L.head? := by
  have none_case : s'.mem = s.mem → ∃ xs : List (Option Nat),
      (∀ i, pad (entryOff m₀ f) f i → s'.mem i = perform s.mem (xs.flatMap (entryWrites t (entryOff m₀ f) f)) i) ∧
      ∀ x ∈ xs, ∃ L, Between (versions ps f) (versions (track ps r a) f) L ∧ x = L.head? :=
    fun hm => ⟨[], fun i _ => by rw [hm]; rfl, by simp⟩
  have settled : ∀ {s1 : State} {ws : List Req} {xs : List (Option Nat)}, Emits s s1 ws → healthy s1.err → Acts t (entryOff m₀ f) f ws xs →
      ∀ i, pad (entryOff m₀ f) f i → (settle s1).mem i = perform s.mem (xs.flatMap (entryWrites t (entryOff m₀ f) f)) i := by
    intro s1 ws xs he hh ha i hi
    obtain ⟨ws', _, heq, hs⟩ := settle_emits hinv.clean he
    have hne : s1.err ≠ EINSNQ := by rcases hh with h | h <;> rw [h] <;> decide
    rw [hs, heq hne]
    exact ha _ _ (fun _ _ => rfl) i hi
  have hinv' := serve_inv htl hI hfit hinv h
  have settle_err : ∀ s : State, (settle s).err = s.err := fun _ => rfl
  cases r with
  | check id =>
    simp only [serve, Option.some.injEq, Prod.mk.injEq] at h
    exact none_case (by rw [h.1])
  | toggle =>
    simp only [serve, Option.some.injEq] at h
    refine none_case ?_
    have : (toggle s).1 = s' := by rw [h]
    rw [← this]
    unfold toggle
    simp only
    split
    · rfl
    split <;> rfl
  | apply w m =>
    simp only [serve, Option.some.injEq, Prod.mk.injEq] at h
    obtain ⟨rfl, rfl⟩ := h
    unfold applyPatch at hinv' hh none_case ⊢
    rw [gate_clean hinv.clean] at hinv' hh none_case ⊢
    by_cases he : s.err ≠ ENONE
    · simp only [if_pos he] at none_case ⊢
      exact none_case (by rw [settle_clean hinv.clean])
    simp only [if_neg he] at hinv' hh none_case ⊢
    have he' : s.err = ENONE := Decidable.not_not.mp he
    cases hb : w.busy with
    | true =>
      simp only [hb, if_true] at none_case ⊢
      exact none_case (by rw [settle_clean hinv.clean])
    | false =>
    simp only [hb, Bool.false_eq_true, if_false] at hinv' hh none_case ⊢
    cases m with
    | error e =>
      simp only at none_case ⊢
      exact none_case (by rw [settle_clean hinv.clean])
    | ok m =>
    simp only at hinv' hh none_case ⊢
    have hg := hinv.good (Or.inl he')
    generalize hl : loadPatch t w m s = p at *
    obtain ⟨s1, e⟩ := p
    simp only at hinv' hh none_case ⊢
    rw [settle_err] at hh
    by_cases h0 : e = 0
    · subst h0
      by_cases ht : m.type = 1
      · obtain ⟨ws, a1, a2, a3, -, so, hso, hws⟩ := loadPatch_apply_ok htl hI hfit ht hg hl
        have htr : track ps (.apply w (.ok m)) 0 = patchOf w m :: ps := by simp [track, ht]
        rw [htr]
        have hres : ∀ u ∈ resolved w m.lib m.units, F u.1 := by
          intro u hu
          rcases fits_units hfit ht u hu with hz | hz
          · have := a3.shown
            exfalso
            obtain ⟨s0, hu0⟩ : ∃ s0, stateUpdate w m s = some s0 := by
              cases hsu : stateUpdate w m s with
              | some s0 => exact ⟨s0, rfl⟩
              | none =>
                exfalso
                unfold loadPatch at hl
                simp only [ht, hsu, show ¬ ((1 : Nat) = 2) by decide, if_false, ne_eq, not_false_eq_true, true_and, if_true] at hl
                by_cases h1 : sanity w m s = 0
                · rw [if_neg (by simpa using h1)] at hl
                  split at hl
                  · exact absurd (Prod.mk.inj hl).2 (by decide)
                  · exact absurd (Prod.mk.inj hl).2 (by decide)
                · rw [if_pos h1] at hl
                  exact h1 (Prod.mk.inj hl).2
            unfold stateUpdate at hu0
            cases hr : resolveUnits w m.lib m.units with
            | none => simp [hr] at hu0
            | some us => exact (resolveUnits_some hr).2 u hu hz
          · exact hz.1
        refine ⟨_, settled a1 hh (xs := ((patchOf w m).repl.filter (fun u => u.1 = f)).map (fun u => some u.2)) ?_, ?_⟩
        · rw [hws]
          rw [show ((patchOf w m).repl.filter (fun u => u.1 = f)).map (fun u => some u.2) =
            ((resolved w m.lib m.units).filter (fun u => u.1 = f)).map (fun u => some u.2) ++ [] by
              rw [List.append_nil, patchOf_resolved]]
          refine (unitWrites_acts htl hI.range (image_pads hI) f hf _ hres).append (Acts.out (A := slot) ?_ ?_)
          · intro x hx i hi
            obtain ⟨r, hr, rfl⟩ := List.mem_map.mp hx
            simp only [InsnQueue.touches, refBytes_length] at hi
            exact ((hfit ht).2 r hr so hso).2 i hi.1 hi.2
          · intro i hi
            exact hI.slots f i hf ((inPad_iff _ _ _).mpr hi)
        · intro x hx
          obtain ⟨L, b1, b2, b3⟩ := apply_between w m ps f x hx
          exact ⟨L, Or.inl ⟨b1, b2⟩, b3⟩
      · by_cases ht2 : m.type = 2
        · obtain ⟨hc, rfl⟩ := loadPatch_revert hl ht2
          obtain ⟨ws, xs, a1, a2, a3, a4⟩ := revertPatch_acts htl hI hg hg.ready hc f hf
          have htr : track ps (.apply w (.ok m)) 0 = ps.filter (fun p => p.id ≠ m.id) := by simp [track, ht2]
          rw [htr]
          refine ⟨xs, settled a1 hh a2, ?_⟩
          intro x hx
          obtain ⟨L, b1, b2, b3⟩ := a4 x hx
          exact ⟨L, Or.inr ⟨b1, b2⟩, b3⟩
        · exact absurd rfl (loadPatch_other hl ht ht2)
    · rcases loadPatch_refused hl h0 with rfl | ⟨ht, s0, s2, hu, ha, rfl⟩
      · exact none_case (by rw [settle_clean hinv.clean])
      · exfalso
        rcases hh with h | h <;> simp [EUNKNOWN, ENONE, EUSRBLOCKED] at h
  | revertAll w lib =>
    simp only [serve] at h
    have hrv := h
    unfold revertAll at h
    rw [gate_clean hinv.clean] at h
    by_cases he : s.err ≠ ENONE
    · simp only [if_pos he, Option.map_some, Option.some.injEq, Prod.mk.injEq] at h
      obtain ⟨rfl, rfl⟩ := h
      exact none_case (by rw [settle_clean hinv.clean])
    simp only [if_neg he] at h
    have he' : s.err = ENONE := Decidable.not_not.mp he
    cases hb : w.busy with
    | true =>
      simp only [hb, if_true, Option.map_some, Option.some.injEq, Prod.mk.injEq] at h
      obtain ⟨rfl, rfl⟩ := h
      exact none_case (by rw [settle_clean hinv.clean])
    | false =>
    simp only [hb, Bool.false_eq_true, if_false] at h
    split at h
    · simp only [Option.map_some, Option.some.injEq, Prod.mk.injEq] at h
      obtain ⟨rfl, rfl⟩ := h
      exact none_case (by rw [settle_clean hinv.clean])
    have hg := hinv.good (Or.inl he')
    cases hl : revertAllLoop t (getBasename lib) fuel s.patches ENOTARGETLIB s with
    | none => simp [hl] at h
    | some p =>
    obtain ⟨s1, e⟩ := p
    obtain ⟨ws, xs, vm', ps', a1, a2, a3, a4, a5⟩ := revertAllLoop_acts htl hI f hf fuel s.patches ENOTARGETLIB s s.mem ps hg
      hg.ready s1 e hl
    have hs1 : s' = settle s1 := by
      simp only [hl, Option.map_some, Option.some.injEq] at h
      split at h <;> exact (Prod.mk.inj h).1.symm
    subst hs1
    have htr : track ps (.revertAll w lib) a = ps' := by
      rw [← (hinv'.good hh).shown, ← a3.shown]; rfl
    rw [htr]
    refine ⟨xs, settled a1 hh a2, ?_⟩
    intro x hx
    obtain ⟨L, b1, b2, b3⟩ := a5 x hx
    exact ⟨L, Or.inr ⟨b1, b2⟩, b3⟩

/-! ### the stub as seen by a thread -/

/-- The stub of `f` leads to `g`. -/
def Stub (t : List UInt8) (m : Mem) (f g : Nat) : Prop := m.load (f - 52) 52 = t ++ le 8 g

theorem stub_congr {m m' : Mem} {off f g} (hf : 52 ≤ f) (h : ∀ i, pad off f i → m i = m' i) (ht : Stub t m f g) : Stub t m' f g := by
  unfold pad at h
  unfold Stub
  rw [← load_congr (m := m) (fun i a b => h i ⟨by omega, by omega⟩)]; exact ht

theorem entryWrites_stub {m : Mem} {off f g} (htl : t.length = 44) (hf : 52 ≤ f) (x : Option Nat) (h : Stub t m f g) :
    ∃ g', Stub t (perform m (entryWrites t off f x)) f g' ∧ (g' = g ∨ some g' = x) := by
  cases x with
  | none =>
    refine ⟨g, ?_, Or.inl rfl⟩
    show Stub t (m.store (f + off) Ppc.nop) f g
    unfold Stub
    rw [load_store_out (by left; omega)]
    exact h
  | some g' =>
    refine ⟨g', ?_, Or.inr rfl⟩
    show Stub t ((m.store (f - 52) (t ++ le 8 g')).store (f + off) (Ppc.branchBytes off)) f g'
    unfold Stub
    have hl : (t ++ le 8 g').length = 52 := by simp [htl]
    have h1 := load_store (m := m) (a := f - 52) (bytes := t ++ le 8 g')
    rw [hl] at h1
    rw [load_store_out (by omega)]
    exact h1

theorem writes_stub (htl : t.length = 44) {off f} (hf : 52 ≤ f) (xs : List (Option Nat)) {m : Mem} {g} (h : Stub t m f g) :
    ∃ g', Stub t (perform m (xs.flatMap (entryWrites t off f))) f g' ∧ (g' = g ∨ some g' ∈ xs) := by
  induction xs generalizing m g with
  | nil => exact ⟨g, h, Or.inl rfl⟩
  | cons x xs ih =>
    rw [List.flatMap_cons, perform_append]
    obtain ⟨g1, h1, h2⟩ := entryWrites_stub (off := off) htl hf x h
    obtain ⟨g2, h3, h4⟩ := ih h1
    refine ⟨g2, h3, ?_⟩
    rcases h4 with rfl | h4
    · rcases h2 with rfl | h2
      · exact Or.inl rfl
      · exact Or.inr (by rw [h2]; simp)
    · exact Or.inr (by simp [h4])

theorem stub_insn {m : Mem} {f g k} (htl : t.length = 44) (hf : 52 ≤ f) (h : Stub t m f g) (hk : k ≤ 10) :
    m.load (f - 52 + 4 * k) 4 = (t.drop (4 * k)).take 4 := by
  have e : m.load (f - 52) 52 = m.load (f - 52) (4 * k) ++ (m.load (f - 52 + 4 * k) 4 ++ m.load (f - 52 + 4 * k + 4) (48 - 4 * k)) := by
    rw [← load_append, ← load_append]
    congr 1
    omega
  have h1 : ((m.load (f - 52) 52).drop (4 * k)).take 4 = m.load (f - 52 + 4 * k) 4 := by
    rw [e, List.drop_left' (by simp), List.take_left' (by simp)]
  rw [← h1, h, List.drop_append_of_le_length (by omega), List.take_append_of_le_length (by rw [List.length_drop]; omega)]

theorem stub_addr {m : Mem} {f g} (htl : t.length = 44) (hf : 52 ≤ f) (hg : g < 2 ^ 64) (h : Stub t m f g) : leVal (m.load (f - 8) 8) = g := by
  have e : m.load (f - 52) 52 = m.load (f - 52) 44 ++ m.load (f - 8) 8 := by
    rw [show f - 8 = f - 52 + 44 by omega, ← load_append]
  have h1 : (m.load (f - 52) 52).drop 44 = m.load (f - 8) 8 := by rw [e, List.drop_left' (by simp)]
  rw [← h1, h, List.drop_left' htl]
  exact leVal_le_of_lt (by simpa using hg)

theorem entry_plain {m : Mem} {off f} (he : Entry t m off f none) : Ppc.Spec.step m (f + off) = some (((f + off : Nat) : Int) + 4) := by
  unfold Ppc.Spec.step
  have h : m.load (f + off) 4 = [0x00, 0x00, 0x00, 0x60] := by simpa [Ppc.nop] using he.insn
  rw [if_pos h]

theorem entry_branch {m : Mem} {off f g} (he : Entry t m off f (some g)) : Ppc.Spec.step m (f + off) = some ((f : Int) - 52) := by
  have hb : m.load (f + off) 4 = Ppc.branchBytes off := by simpa using he.insn
  unfold Ppc.Spec.step
  have ho := he.offs
  rw [hb, show ([0x00, 0x00, 0x00, 0x60] : List UInt8) = Ppc.nop from rfl, if_neg (Ppc.branch_ne_nop off ho),
    Ppc.branchBytes_word off (by omega),
    Ppc.C46_branch_decodes _ (by unfold Ppc.withOffset Ppc.preLen; omega) (by unfold Ppc.withOffset Ppc.preLen; omega)
      (by unfold Ppc.withOffset Ppc.preLen; omega)]
  simp only [Option.some.injEq]
  unfold Ppc.withOffset Ppc.preLen; omega

/-- The instructions setting up the TOC pointer are never written. -/
theorem toc_same {m₀ F slot s ps f i} (hI : Image m₀ F slot) (hf : F f) (hinv : Inv t m₀ F slot s ps) (h8 : entryOff m₀ f = 8) (hi : i ≤ 1) :
    s.mem.load (f + 4 * i) 4 = m₀.load (f + 4 * i) 4 := by
  refine load_congr fun j h1 h2 => hinv.frame j ?_
  have hp : inPad m₀ f j := by unfold inPad body; omega
  rintro (⟨g, hg, hc⟩ | hs)
  · have hq : inPad m₀ g j := (inPad_iff _ _ _).mpr (cell_pad ((inStub_iff _ _ _).mp hc))
    have := hI.disjoint f g j hf hg hp hq
    subst this
    unfold inStub at hc
    omega
  · exact hI.slots f j hf hp hs

/-- Instructions executed before one in the stub or in the trampoline, at most. -/
def bound : Place → Option Nat
  | .stub k => if k ≤ 10 then some (3 + k) else none
  | .mflr => some 14
  | .ld => some 15
  | _ => none

/-- Where a thread that has called `f` can be. -/
inductive Where (t : List UInt8) (m₀ : Mem) (f : Nat) (mem : Mem) (ms : List (List Patch)) : Place → (n : Nat) → Prop where
  | toc (i) (hi : i ≤ 1) (h8 : entryOff m₀ f = 8) : Where t m₀ f mem ms (.toc i) i
  | entry (n) (hn : n ≤ 2) : Where t m₀ f mem ms .entry n
  | inside (pl b n g) (hb : bound pl = some b) (hn : n ≤ b) (h : Stub t mem f g) (hg : g < 2 ^ 64)
      (hl : ∃ q ∈ ms, g ∈ versions q f) (hc : Gradual f ms → ∃ q ∈ ms, replacement q f = some g) : Where t m₀ f mem ms pl n
  | done (g n) (hn : n ≤ 16) (hl : ∃ q ∈ ms, (g = body m₀ f ∧ replacement q f = none) ∨ g ∈ versions q f)
      (hc : Gradual f ms → ∃ q ∈ ms, Current (body m₀ f) f g q) : Where t m₀ f mem ms (.done g) n

theorem call_where (htl : t.length = 44) {fuel m₀ F slot f s₀ ps₀ s ps pl n ms} (hI : Image m₀ F slot) (hf : F f)
    (hinv₀ : Inv t m₀ F slot s₀ ps₀) (h : Call t fuel m₀ F slot f s₀ ps₀ s ps pl n ms) :
    Inv t m₀ F slot s ps ∧ (∃ ms', ms = ps :: ms') ∧ (healthy s.err → Where t m₀ f s.mem ms pl n) := by
  obtain ⟨hr1, hr2⟩ := hI.range f hf
  have hoff : entryOff m₀ f = 0 ∨ entryOff m₀ f = 8 := by unfold entryOff; split <;> simp
  induction h with
  | start =>
    refine ⟨hinv₀, ⟨[], rfl⟩, fun hh => ?_⟩
    unfold first
    rcases hoff with h0 | h8
    · rw [if_pos h0]; exact .entry 0 (by omega)
    · rw [if_neg (by omega)]; exact .toc 0 (by omega) h8
  | @request s ps pl n ms r s' a _ hr hs ih =>
    obtain ⟨hinv, ⟨ms', rfl⟩, hj⟩ := ih
    have hinv' := serve_inv htl hI hr hinv hs
    refine ⟨hinv', ⟨_, rfl⟩, fun hh => ?_⟩
    have hj := hj (unhealthy_stays hinv.clean hs hh)
    obtain ⟨xs, h1, h2⟩ := serve_acts htl hI hr hinv hs hh f hf
    cases hj with
    | toc _ hi h8 => exact .toc _ hi h8
    | entry _ hn => exact .entry _ hn
    | inside _ b _ g hb hn ht hg hl hc =>
      obtain ⟨g', ht', hg'⟩ := writes_stub htl (off := entryOff m₀ f) hr1 xs ht
      have ht'' : Stub t s'.mem f g' := stub_congr hr1 (fun i hi => (h1 i hi).symm) ht'
      rcases hg' with rfl | hg'
      · obtain ⟨q, hq, hgq⟩ := hl
        refine .inside _ b _ g' hb hn ht'' hg ⟨q, by simp [List.mem_cons.mp hq], hgq⟩ fun hgr => ?_
        obtain ⟨q, hq, e⟩ := hc (gradual_tail hgr)
        exact ⟨q, by simp [List.mem_cons.mp hq], e⟩
      · obtain ⟨L, hL, hhd⟩ := h2 _ hg'
        have hmem := between_mem hL hhd.symm
        have hgood' := hinv'.good hh
        have hgood := hinv.good (unhealthy_stays hinv.clean hs hh)
        refine .inside _ b _ g' hb hn ht'' ?_ ?_ fun hgr => ?_
        · rcases hmem with hm | hm
          · exact good_targets hgood f g' hm
          · exact good_targets hgood' f g' hm
        · rcases hmem with hm | hm
          · exact ⟨ps, by simp, hm⟩
          · exact ⟨track ps r a, by simp, hm⟩
        · rcases between_gradual hL hgr.1.1 hgr.1.2 with rfl | rfl
          · exact ⟨ps, by simp, by rw [← head?_versions]; exact hhd.symm⟩
          · exact ⟨track ps r a, by simp, by rw [← head?_versions]; exact hhd.symm⟩
    | done _ _ hn hl hc =>
      refine .done _ _ hn ?_ fun hgr => ?_
      · obtain ⟨q, hq, h⟩ := hl
        exact ⟨q, by simp [List.mem_cons.mp hq], h⟩
      · obtain ⟨q, hq, h⟩ := hc (gradual_tail hgr)
        exact ⟨q, by simp [List.mem_cons.mp hq], h⟩
  | @step s ps pl n ms pl' _ hs ih =>
    obtain ⟨hinv, ⟨ms', rfl⟩, hj⟩ := ih
    refine ⟨hinv, ⟨_, rfl⟩, fun hh => ?_⟩
    have hj := hj hh
    have hgood := hinv.good hh
    have hent := hgood.entries f hf
    rw [hgood.top f] at hent
    cases hj with
    | toc i hi h8 =>
      simp only [next, toc_same hI hf hinv h8 hi, if_true, Option.some.injEq] at hs
      subst hs
      by_cases h0 : n = 0
      · subst h0; exact .toc 1 (by omega) h8
      · rw [if_neg h0]; exact .entry _ (by omega)
    | entry _ hn =>
      cases hrep : replacement ps f with
      | none =>
        rw [hrep] at hent
        simp only [next, entry_plain hent] at hs
        rw [if_pos (by omega)] at hs
        injection hs with hs
        subst hs
        exact .done _ _ (by omega) ⟨ps, by simp, Or.inl ⟨rfl, hrep⟩⟩ fun _ => ⟨ps, by simp, by rw [Current, hrep]; rfl⟩
      | some g =>
        rw [hrep] at hent
        simp only [next, entry_branch hent] at hs
        rw [if_neg (by omega), if_pos trivial] at hs
        injection hs with hs
        subst hs
        have hv : g ∈ versions ps f := by
          have := head?_versions ps f
          rw [hrep] at this
          exact List.mem_of_head? this
        exact .inside _ 3 _ g rfl (by omega) (hent.stub g rfl) (good_targets hgood f g hv) ⟨ps, by simp, hv⟩ fun _ => ⟨ps, by simp, hrep⟩
    | inside _ b _ g hb hn ht hg hl hc =>
      cases pl with
      | toc i => cases hb
      | entry => cases hb
      | done g => cases hb
      | stub k =>
        simp only [bound] at hb
        by_cases hk : k ≤ 10
        · rw [if_pos hk] at hb
          injection hb with hb
          simp only [next, stub_insn htl hr1 ht hk, if_true, Option.some.injEq] at hs
          subst hs
          by_cases h10 : k < 10
          · rw [if_pos h10]
            exact .inside _ (3 + (k + 1)) _ g (by simp only [bound]; rw [if_pos (by omega)]) (by omega) ht hg hl hc
          · rw [if_neg h10]
            exact .inside _ 14 _ g rfl (by omega) ht hg hl hc
        · rw [if_neg hk] at hb; cases hb
      | mflr =>
        injection hb with hb
        injection hs with hs
        subst hs
        exact .inside _ 15 _ g rfl (by omega) ht hg hl hc
      | ld =>
        injection hb with hb
        simp only [next, stub_addr htl hr1 hg ht, Option.some.injEq] at hs
        subst hs
        obtain ⟨q, hq, hgq⟩ := hl
        refine .done _ _ (by omega) ⟨q, hq, Or.inr hgq⟩ fun hgr => ?_
        obtain ⟨q, hq, e⟩ := hc hgr
        exact ⟨q, hq, by rw [Current, e]; rfl⟩
    | done _ _ hn hl hc => cases hs

/-- The thread can go on. -/
theorem where_next (htl : t.length = 44) {m₀ F slot f s ps pl n ms} (hI : Image m₀ F slot) (hf : F f) (hinv : Inv t m₀ F slot s ps)
    (hh : healthy s.err) (hw : Where t m₀ f s.mem ms pl n) :
    (n ≤ 15 ∧ ∃ pl', next t m₀ s.mem f pl = some pl') ∨ ∃ g, pl = .done g := by
  obtain ⟨hr1, hr2⟩ := hI.range f hf
  have hgood := hinv.good hh
  have hent := hgood.entries f hf
  rw [hgood.top f] at hent
  cases hw with
  | toc i hi h8 =>
    refine Or.inl ⟨by omega, ?_⟩
    simp only [next, toc_same hI hf hinv h8 hi, if_true]
    exact ⟨_, rfl⟩
  | entry _ hn =>
    refine Or.inl ⟨by omega, ?_⟩
    cases hrep : replacement ps f with
    | none =>
      rw [hrep] at hent
      simp only [next, entry_plain hent]
      rw [if_pos (by omega)]
      exact ⟨_, rfl⟩
    | some g =>
      rw [hrep] at hent
      simp only [next, entry_branch hent]
      rw [if_neg (by omega), if_pos trivial]
      exact ⟨_, rfl⟩
  | inside _ b _ g hb hn ht hg hl hc =>
    cases pl with
    | toc i => cases hb
    | entry => cases hb
    | done g => cases hb
    | stub k =>
      simp only [bound] at hb
      by_cases hk : k ≤ 10
      · rw [if_pos hk] at hb
        injection hb with hb
        refine Or.inl ⟨by omega, ?_⟩
        simp only [next, stub_insn htl hr1 ht hk, if_true]
        exact ⟨_, rfl⟩
      · rw [if_neg hk] at hb; cases hb
    | mflr => injection hb with hb; exact Or.inl ⟨by omega, _, rfl⟩
    | ld => injection hb with hb; exact Or.inl ⟨by omega, _, rfl⟩
  | done g _ hn hl hc => exact Or.inr ⟨g, rfl⟩

end Verif.PpcMidway
