import Verif.Unload.Spec
import Verif.Runtime.Invariant

namespace Verif.Unload

open Verif.Runtime
open Verif.Runtime.Spec
open Verif.InsnQueue (Req Holds touches Queue)
open Verif.InsnQueue.Spec (perform)

/-! ### reverting over memory that is not as libpulp left it -/

/-- The bytes needed for disabling. -/
def EndbrAt (m : Mem) (e : Bool) (f : Nat) : Prop := e = true → m.load f 4 = X86.endbr64

theorem EndbrAt.congr {m m' : Mem} {e f} (h : ∀ i, pad e f i → m i = m' i) (he : EndbrAt m e f) : EndbrAt m' e f := by
  intro ht
  rw [← he ht]
  refine load_congr fun i h1 h2 => (h i ⟨by omega, ?_⟩).symm
  subst ht; simp only [X86.bias, if_true]; omega

theorem entryWrite_any {m : Mem} {e f} (y) (h : EndbrAt m e f) : Entry (perform m [entryWrite e f y]) e f y := by
  cases y with
  | none => exact X86.plain_store h
  | some g => exact X86.redirected_store _ _ _ _

/-- Reverting on one function, whatever its entry was. -/
theorem revertRoot_any {id f e} (hf : 14 ≤ f) (hf2 : f + 6 < 2 ^ 64) (done rest : List Detour) (s : State)
    (hp : X86.patchable s.mem f = true) (he : X86.hasEndbr s.mem f = e) :
    ∃ ws, Emits s (revertRoot id f done rest s).1 ws ∧ InSet (pad e f) ws ∧
      (∀ m, EndbrAt m e f → (∃ d ∈ rest, d.id = id) → Entry (perform m ws) e f (top (done ++ rest.map (deact id)))) ∧
      ((∀ d ∈ rest, d.id ≠ id) → ws = []) := by
  induction rest generalizing done s with
  | nil => exact ⟨[], Emits.refl _, by simp [InSet], fun m _ h => by simp at h, fun _ => rfl⟩
  | cons d rest ih =>
    rw [revertRoot_cons]
    by_cases hd : d.id = id
    · rw [if_pos hd]
      have h1 := (patchAddr_ready (s := s) (top (done ++ { d with active := false } :: rest)) hp he hf2).1
      generalize hs1 : (patchAddr s f ((top (done ++ { d with active := false } :: rest)).getD 0)
            (top (done ++ { d with active := false } :: rest)).isSome).1 = s1 at h1 ⊢
      have hm : s1.mem = s.mem := h1.mem
      obtain ⟨ws, j1, j2, j3, j4⟩ := ih (done ++ [{ d with active := false }]) s1 (by rw [hm]; exact hp)
        (by rw [hm]; exact he)
      refine ⟨_, h1.trans j1, (entryWrite_inSet hf).append j2, ?_, fun h => absurd hd (h d (by simp))⟩
      intro m hm _
      have h2 := entryWrite_any (top (done ++ { d with active := false } :: rest)) hm
      rw [perform_append]
      by_cases hx : ∃ d ∈ rest, d.id = id
      · have := j3 _ (h2.endbr hf) hx
        simpa [deact, hd] using this
      · have hno : ∀ d ∈ rest, d.id ≠ id := fun d hd hc => hx ⟨d, hd, hc⟩
        rw [j4 hno]
        have hmap : rest.map (deact id) = rest := by
          conv => rhs; rw [← List.map_id rest]
          apply List.map_congr_left
          intro d hd
          simp [deact, hno d hd]
        simpa [perform, deact, hd, hmap] using h2
    · rw [if_neg hd]
      obtain ⟨ws, j1, j2, j3, j4⟩ := ih (done ++ [d]) s hp he
      refine ⟨ws, j1, j2, ?_, fun h => j4 (fun d hd => h d (by simp [hd]))⟩
      intro m hm hx
      obtain ⟨x, hx, hxi⟩ := hx
      rcases List.mem_cons.mp hx with rfl | hx
      · exact absurd hxi hd
      have := j3 m hm ⟨x, hx, hxi⟩
      simpa [deact, hd] using this

/-- Reverting on all functions, whatever their entries `X` were. -/
theorem revertRoots_any {id} {e0 : Nat → Bool} (rs : List Root) (s : State)
    (hv : ∀ r ∈ rs, 14 ≤ r.addr ∧ r.addr + 6 < 2 ^ 64)
    (hready : ∀ r ∈ rs, X86.patchable s.mem r.addr = true ∧ X86.hasEndbr s.mem r.addr = e0 r.addr)
    (hnd : (rs.map (fun r => r.addr)).Nodup)
    (hdis : ∀ r ∈ rs, ∀ r' ∈ rs, ∀ i, pad (e0 r.addr) r.addr i → pad (e0 r'.addr) r'.addr i → r.addr = r'.addr) :
    ∃ ws, Emits s (revertRoots id rs s).1 ws ∧
      InSet (fun i => ∃ r ∈ rs, pad (e0 r.addr) r.addr i) ws ∧
      ∀ (m : Mem) (X : Nat → Option Nat), (∀ r ∈ rs, Entry m (e0 r.addr) r.addr (X r.addr)) →
        ∀ r ∈ rs, ((∃ d ∈ r.detours, d.id = id) ∨ X r.addr = top (r.detours.map (deact id))) →
          Entry (perform m ws) (e0 r.addr) r.addr (top (r.detours.map (deact id))) := by
  induction rs generalizing s with
  | nil => exact ⟨[], Emits.refl _, by simp [InSet], by simp⟩
  | cons r rs ih =>
    simp only [revertRoots]
    obtain ⟨hv1, hv2⟩ := hv r (by simp)
    obtain ⟨hp, he⟩ := hready r (by simp)
    obtain ⟨w1, a1, a2, a3, a4⟩ := revertRoot_any (id := id) hv1 hv2 [] r.detours s hp he
    have hm := (revertRoot_fields id r.addr [] r.detours s).2.2.2.1
    simp only [List.map_cons, List.nodup_cons] at hnd
    obtain ⟨w2, b1, b2, b3⟩ := ih (revertRoot id r.addr [] r.detours s).1
      (fun r hr => hv r (by simp [hr])) (by rw [hm]; exact fun r hr => hready r (by simp [hr])) hnd.2
      (fun r hr r' hr' => hdis r (by simp [hr]) r' (by simp [hr']))
    refine ⟨w1 ++ w2, a1.trans b1, ?_, ?_⟩
    · refine InSet.append (a2.mono fun i hi => ⟨r, by simp, hi⟩) (b2.mono ?_)
      rintro i ⟨x, hx, hi⟩
      exact ⟨x, by simp [hx], hi⟩
    · intro m X hent x hx hor
      rw [perform_append]
      rcases List.mem_cons.mp hx with rfl | hx
      · have h1 : Entry (perform m w1) (e0 x.addr) x.addr (top (x.detours.map (deact id))) := by
          by_cases hh : ∃ d ∈ x.detours, d.id = id
          · have := a3 m ((hent x (by simp)).endbr hv1) hh
            simpa using this
          · rw [a4 (fun d hd hc => hh ⟨d, hd, hc⟩)]
            rcases hor with h | h
            · exact absurd h hh
            · rw [← h]; exact hent x (by simp)
        refine Entry.congr hv1 ?_ h1
        intro i hi
        refine (perform_inSet b2 ?_).symm
        rintro ⟨y, hy, hyi⟩
        have := hdis x (by simp) y (by simp [hy]) i hi hyi
        exact hnd.1 (List.mem_map.mpr ⟨y, hy, this.symm⟩)
      · refine b3 _ X ?_ x hx hor
        intro y hy
        refine Entry.congr (hv y (by simp [hy])).1 ?_ (hent y (by simp [hy]))
        intro i hi
        refine (perform_inSet a2 ?_).symm
        intro hri
        have := hdis r (by simp) y (by simp [hy]) i hri hi
        exact hnd.1 (List.mem_map.mpr ⟨y, hy, this.symm⟩)

/-- Reverting, seen from one function; the others only write close to themselves. -/
theorem revertRoots_at {id f e} {A : Nat → Prop} (hf : 14 ≤ f) (hf2 : f + 6 < 2 ^ 64) (rs : List Root) (s : State)
    (hv : ∀ r ∈ rs, 14 ≤ r.addr ∧ r.addr + 6 < 2 ^ 64)
    (hA : ∀ r ∈ rs, r.addr ≠ f → ∀ i, inPad s.mem r.addr i → A i)
    (hd : ∀ i, pad e f i → ¬ A i)
    (hp : X86.patchable s.mem f = true) (he : X86.hasEndbr s.mem f = e)
    (hnd : (rs.map (fun r => r.addr)).Nodup) :
    ∃ ws, Emits s (revertRoots id rs s).1 ws ∧
      ∀ m, EndbrAt m e f →
        ∀ r ∈ rs, r.addr = f → (∃ d ∈ r.detours, d.id = id) →
          Entry (perform m ws) e f (top (r.detours.map (deact id))) := by
  induction rs generalizing s with
  | nil => exact ⟨[], Emits.refl _, by simp⟩
  | cons r rs ih =>
    simp only [revertRoots]
    simp only [List.map_cons, List.nodup_cons] at hnd
    have hm := (revertRoot_fields id r.addr [] r.detours s).2.2.2.1
    obtain ⟨hv1, hv2⟩ := hv r (by simp)
    by_cases hrf : r.addr = f
    · obtain ⟨w1, a1, a2, a3, a4⟩ := revertRoot_any (id := id) (e := e) hv1 hv2 [] r.detours s (by rw [hrf]; exact hp)
        (by rw [hrf]; exact he)
      obtain ⟨w2, b1, b2⟩ := revertRoots_in (id := id) (A := A) rs (revertRoot id r.addr [] r.detours s).1
        (fun r hr => hv r (by simp [hr])) (fun y hy => by
          rw [hm]
          refine hA y (by simp [hy]) ?_
          intro hc
          exact hnd.1 (List.mem_map.mpr ⟨y, hy, hc.trans hrf.symm⟩))
      refine ⟨w1 ++ w2, a1.trans b1, ?_⟩
      intro m hem x hx hxf hxi
      rw [perform_append]
      have hxr : x = r := by
        rcases List.mem_cons.mp hx with rfl | hx
        · rfl
        · exact absurd (List.mem_map.mpr ⟨x, hx, hxf.trans hrf.symm⟩) hnd.1
      subst hxr
      rw [hxf] at a3
      refine Entry.congr hf (fun i hi => (perform_inSet b2 (hd i hi)).symm) ?_
      simpa using a3 m hem hxi
    · obtain ⟨w1, a1, a2⟩ := (revertRoot_in (id := id) [] r.detours s hv1 hv2).mono (hA r (by simp) hrf)
      obtain ⟨w2, b1, b2⟩ := ih (revertRoot id r.addr [] r.detours s).1 (fun r hr => hv r (by simp [hr]))
        (fun y hy => by rw [hm]; exact hA y (by simp [hy])) (by rw [hm]; exact hp) (by rw [hm]; exact he) hnd.2
      refine ⟨w1 ++ w2, a1.trans b1, ?_⟩
      intro m hem x hx hxf hxi
      rw [perform_append]
      rcases List.mem_cons.mp hx with rfl | hx
      · exact absurd hxf hrf
      · exact b2 _ (hem.congr fun i hi => (perform_inSet a2 (hd i hi)).symm) x hx hxf hxi

theorem patchAddr_refused {s : State} {f g en} (h : X86.patchable s.mem f = false) : (patchAddr s f g en).1 = s := by
  unfold patchAddr
  have : X86.patchAddr s.mem f g en = .error ENOPATCHABLE := by
    unfold X86.patchAddr; simp [h]
  rw [this]

theorem revertRoot_refused {id f} (done rest : List Detour) (s : State)
    (hp : X86.patchable s.mem f = false) : (revertRoot id f done rest s).1 = s := by
  induction rest generalizing done with
  | nil => rfl
  | cons d rest ih =>
    rw [revertRoot_cons]
    split
    · rw [patchAddr_refused hp]; exact ih _
    · exact ih _

theorem revertRoot_other {id f} (done rest : List Detour) (s : State) (h : ∀ d ∈ rest, d.id ≠ id) :
    (revertRoot id f done rest s).1 = s := by
  induction rest generalizing done with
  | nil => rfl
  | cons d rest ih =>
    rw [revertRoot_cons, if_neg (h d (by simp))]
    exact ih _ (fun d hd => h d (by simp [hd]))

theorem revertRoots_refused {id} (rs : List Root) (s : State)
    (h : ∀ r ∈ rs, (∃ d ∈ r.detours, d.id = id) → X86.patchable s.mem r.addr = false) :
    (revertRoots id rs s).1 = s := by
  induction rs with
  | nil => rfl
  | cons r rs ih =>
    simp only [revertRoots]
    have : (revertRoot id r.addr [] r.detours s).1 = s := by
      by_cases hx : ∃ d ∈ r.detours, d.id = id
      · exact revertRoot_refused _ _ _ (h r (by simp) hx)
      · exact revertRoot_other _ _ _ (fun d hd hc => hx ⟨d, hd, hc⟩)
    rw [this]
    exact ih (fun r hr => h r (by simp [hr]))

/-! ### the program changing its memory -/

theorem image_endbr {m₀ m' : Mem} {F slot} (hI : Image m₀ F slot) {f} (hf : F f)
    (h : ∀ i, inPad m₀ f i → m' i = m₀ i) : X86.hasEndbr m' f = X86.hasEndbr m₀ f := by
  have hp := (init_inv hI).good (Or.inl rfl)
  have he := hp.entries f hf
  simp only [State.init, stackOf, top, List.find?_nil, Option.map_none] at he
  have he' : Entry m' (X86.hasEndbr m₀ f) f none :=
    Entry.congr (hI.range f hf).1 (fun i hi => (h i ((inPad_iff _ _ _).mpr hi)).symm) he
  exact (he'.ready (hI.range f hf).1).2

theorem image_inPad {m₀ m' : Mem} {F slot} (hI : Image m₀ F slot) {f} (hf : F f)
    (h : ∀ i, inPad m₀ f i → m' i = m₀ i) (i) : inPad m' f i ↔ inPad m₀ f i := by
  rw [inPad_iff, inPad_iff, image_endbr hI hf h]

theorem image_congr {m₀ m' : Mem} {F slot} (hI : Image m₀ F slot)
    (h : ∀ f, F f → ∀ i, inPad m₀ f i → m' i = m₀ i) : Image m' F slot := by
  refine ⟨hI.range, ?_, ?_, ?_⟩
  · intro f hf
    have hb : X86.Spec.body m' f = X86.Spec.body m₀ f := by
      rw [X86.body_eq, X86.body_eq, image_endbr hI hf (h f hf)]
    have hl : m'.load (X86.Spec.body m' f - 2) 2 = m₀.load (X86.Spec.body m₀ f - 2) 2 := by
      rw [hb]
      refine load_congr fun i h1 h2 => ?_
      apply h f hf
      have := (hI.range f hf).1
      have hb2 : f + 2 ≤ X86.Spec.body m₀ f := by rw [X86.body_eq]; omega
      unfold inPad
      omega
    rw [hl]; exact hI.pad f hf
  · intro f g i hf hg h1 h2
    exact hI.disjoint f g i hf hg ((image_inPad hI hf (h f hf) i).mp h1) ((image_inPad hI hg (h g hg) i).mp h2)
  · intro f i hf h1
    exact hI.slots f i hf ((image_inPad hI hf (h f hf) i).mp h1)

theorem area_congr {m₀ m' : Mem} {F slot} (hI : Image m₀ F slot)
    (h : ∀ f, F f → ∀ i, inPad m₀ f i → m' i = m₀ i) (i) : area m' F slot i ↔ area m₀ F slot i := by
  unfold area
  constructor
  · rintro (⟨f, hf, hi⟩ | hi)
    · exact Or.inl ⟨f, hf, (image_inPad hI hf (h f hf) i).mp hi⟩
    · exact Or.inr hi
  · rintro (⟨f, hf, hi⟩ | hi)
    · exact Or.inl ⟨f, hf, (image_inPad hI hf (h f hf) i).mpr hi⟩
    · exact Or.inr hi

theorem stackOf_mem {rs : List Root} {f d} (h : d ∈ stackOf rs f) : ∃ r ∈ rs, r.addr = f ∧ d ∈ r.detours := by
  induction rs with
  | nil => simp [stackOf] at h
  | cons r rs ih =>
    simp only [stackOf] at h
    split at h
    · rename_i hr; exact ⟨r, by simp, hr, h⟩
    · obtain ⟨x, hx, h1, h2⟩ := ih h; exact ⟨x, by simp [hx], h1, h2⟩

/-- The invariant does not depend on memory outside of pads and slots. -/
theorem inv_program {m₀ m' : Mem} {F slot s ps} (hI : Image m₀ F slot) (hinv : Inv m₀ F slot s ps) (mem' : Mem)
    (h0 : ∀ i, area m₀ F slot i → m' i = m₀ i) (h1 : ∀ i, area m₀ F slot i → mem' i = s.mem i)
    (h2 : ∀ i, ¬ area m₀ F slot i → mem' i = m' i) : Inv m' F slot { s with mem := mem' } ps := by
  have hpad : ∀ f, F f → ∀ i, inPad m₀ f i → m' i = m₀ i := fun f hf i hi => h0 i (Or.inl ⟨f, hf, hi⟩)
  refine ⟨⟨hinv.clean.num, hinv.clean.size, hinv.clean.ver⟩, hinv.book, ?_, ?_⟩
  · intro i hi
    exact h2 i (fun hc => hi ((area_congr hI hpad i).mpr hc))
  · intro hh
    have hg := hinv.good hh
    refine ⟨hg.shown, hg.ids, hg.libs, hg.deps, hg.nodup, hg.inF, ?_, hg.stacks, ?_, hg.univs⟩
    · intro f d hd
      obtain ⟨r, hr, rfl, _⟩ := stackOf_mem hd
      have hf := hg.inF r hr
      have := hg.targets r.addr d hd
      exact ⟨this.1, fun hc => this.2 ((image_inPad hI hf (hpad _ hf) _).mp hc)⟩
    · intro f hf
      rw [image_endbr hI hf (hpad f hf)]
      refine Entry.congr (hI.range f hf).1 ?_ (hg.entries f hf)
      intro i hi
      exact (h1 i (Or.inl ⟨f, hf, (inPad_iff _ _ _).mpr hi⟩)).symm

theorem fits_congr {m₀ m' : Mem} {F slot} (hI : Image m₀ F slot)
    (h : ∀ f, F f → ∀ i, inPad m₀ f i → m' i = m₀ i) {r} (hfit : Fits m₀ F slot r) : Fits m' F slot r := by
  cases r with
  | apply w m =>
    cases m with
    | error e => trivial
    | ok m =>
      intro ht
      obtain ⟨a, b⟩ := hfit ht
      refine ⟨?_, b⟩
      intro u hu
      rcases a u hu with h0 | ⟨h1, h2, h3⟩
      · exact Or.inl h0
      · exact Or.inr ⟨h1, h2, fun hc => h3 ((image_inPad hI h1 (h _ h1) _).mp hc)⟩
  | _ => trivial

/-! ### no crash while everything stays mapped -/

theorem readsUnmapped_false {mapped : Nat → Bool} {s : State} {id} (h : ∀ r ∈ s.roots, mapped r.addr = true) :
    readsUnmapped mapped s id = false := by
  unfold readsUnmapped
  rw [List.any_eq_false]
  intro r hr
  simp [h r hr]

theorem revertPatch_roots (s : State) (id) :
    (revertPatch s id).1.roots = s.roots.map (fun r => { r with detours := r.detours.map (deact id) }) := by
  obtain ⟨f1, f2, f3, f4, f5⟩ := revertRoots_fields id s.roots { s with univ := s.univ + 1 }
  unfold revertPatch stateRemove
  exact f5

theorem loopReads_false {mapped : Nat → Bool} {base} (fuel : Nat) (rem : List Applied) (s : State)
    (h : ∀ r ∈ s.roots, mapped r.addr = true) : loopReads mapped base fuel rem s = false := by
  induction fuel generalizing rem s with
  | zero => cases rem <;> rfl
  | succ n ih =>
    cases rem with
    | nil => rfl
    | cons p rest =>
      simp only [loopReads]
      rw [readsUnmapped_false h, ih rest s h]
      have h2 : ∀ r ∈ (revertPatch s p.id).1.roots, mapped r.addr = true := by
        rw [revertPatch_roots]
        intro r hr
        obtain ⟨x, hx, rfl⟩ := List.mem_map.mp hr
        exact h x hx
      rw [ih rest _ h2]
      simp

theorem crashes_false {fuel : Nat} {p : Proc} (hi : Idle p.s)
    (h : p.s.err = ENONE → ∀ r ∈ p.s.roots, p.mapped r.addr = true) (r : Request) : crashes fuel p r = false := by
  have hgate : ∀ w, gate w p.s = (p.s, some p.s.err) ∨ gate w p.s = (p.s, some EAGAIN) ∨
      (p.s.err = ENONE ∧ gate w p.s = (p.s, none)) := by
    intro w
    rw [gate_clean hi]
    by_cases he : p.s.err ≠ ENONE
    · rw [if_pos he]; exact Or.inl rfl
    · rw [if_neg he]
      split
      · exact Or.inr (Or.inl rfl)
      · exact Or.inr (Or.inr ⟨Decidable.not_not.mp he, rfl⟩)
  cases r with
  | apply w m =>
    cases m with
    | error e => rfl
    | ok m =>
      simp only [crashes]
      rcases hgate w with hg | hg | ⟨he, hg⟩ <;> rw [hg] <;> simp only
      rw [readsUnmapped_false (h he)]; simp
  | revertAll w lib =>
    simp only [crashes]
    rcases hgate w with hg | hg | ⟨he, hg⟩ <;> rw [hg] <;> simp only
    rw [loopReads_false _ _ _ (h he)]; simp
  | _ => rfl

/-! ### detours stay -/

/-- The function at `f` has a detour of patch `id`, active or not. -/
def Marked (s : State) (f : Nat) (id : Id) : Prop := ∃ r ∈ s.roots, r.addr = f ∧ ∃ d ∈ r.detours, d.id = id

theorem push_marked {old d} (rs : List Root) {f id} (h : ∃ r ∈ rs, r.addr = f ∧ ∃ d ∈ r.detours, d.id = id) :
    ∃ r ∈ addDetour.push old d rs, r.addr = f ∧ ∃ d ∈ r.detours, d.id = id := by
  induction rs with
  | nil => obtain ⟨r, hr, _⟩ := h; simp at hr
  | cons r rs ih =>
    obtain ⟨x, hx, hxf, dd, hdd, hid⟩ := h
    simp only [addDetour.push]
    split
    · rcases List.mem_cons.mp hx with rfl | hx
      · exact ⟨_, List.mem_cons_self, hxf, dd, List.mem_cons_of_mem _ hdd, hid⟩
      · exact ⟨x, by simp [hx], hxf, dd, hdd, hid⟩
    · rcases List.mem_cons.mp hx with rfl | hx
      · exact ⟨_, by simp, hxf, dd, hdd, hid⟩
      · obtain ⟨y, hy, h2⟩ := ih ⟨x, hx, hxf, dd, hdd, hid⟩
        exact ⟨y, by simp [hy], h2⟩

theorem push_marks {old d} (rs : List Root) (h : old ∈ rs.map (fun r => r.addr)) :
    ∃ r ∈ addDetour.push old d rs, r.addr = old ∧ ∃ d' ∈ r.detours, d'.id = d.id := by
  induction rs with
  | nil => simp at h
  | cons r rs ih =>
    simp only [addDetour.push]
    split
    · rename_i hr
      exact ⟨_, List.mem_cons_self, hr, d, List.mem_cons_self, rfl⟩
    · rename_i hr
      simp only [List.map_cons, List.mem_cons] at h
      rcases h with h | h
      · exact absurd h.symm hr
      · obtain ⟨y, hy, h2⟩ := ih h
        exact ⟨y, by simp [hy], h2⟩

theorem addDetour_marked {s : State} {old d f id} (h : Marked s f id) : Marked (addDetour s old d) f id := by
  unfold Marked addDetour
  simp only
  split
  · exact push_marked _ h
  · apply push_marked
    obtain ⟨r, hr, h2⟩ := h
    exact ⟨r, by simp [hr], h2⟩

theorem addDetour_marks (s : State) (old d) : Marked (addDetour s old d) old d.id := by
  unfold Marked addDetour
  simp only
  split
  · rename_i h
    apply push_marks
    rw [List.any_eq_true] at h
    obtain ⟨r, hr, h2⟩ := h
    exact List.mem_map.mpr ⟨r, hr, by simpa using h2⟩
  · apply push_marks; simp

theorem Marked.of_roots {s s' : State} {f id} (h : Marked s f id) (hr : s'.roots = s.roots) : Marked s' f id := by
  unfold Marked; rw [hr]; exact h

theorem patchAddr_roots (s : State) (f g en) : (patchAddr s f g en).1.roots = s.roots := by
  unfold patchAddr
  split <;> rfl

theorem applyUnits_marked {w lib id} (us : List UnitM) (s : State) {f i} (h : Marked s f i) :
    Marked (applyUnits w lib id us s).1 f i := by
  induction us generalizing s with
  | nil => exact h
  | cons u us ih =>
    simp only [applyUnits]
    split
    · exact h
    split
    · exact h
    · have h2 : Marked (patchAddr (addDetour s (w.oldSym (getBasename lib) u.oldName u.oldAddr)
          { univ := s.univ, target := w.newSym u.newName, id := id, active := true })
          (w.oldSym (getBasename lib) u.oldName u.oldAddr) (w.newSym u.newName) true).1 f i :=
        (addDetour_marked h).of_roots (patchAddr_roots _ _ _ _)
      split
      · exact h2
      · exact ih _ h2

theorem applyUnits_marks {w lib id} (us : List UnitM) (s : State) (h : (applyUnits w lib id us s).2 = 0) :
    ∀ u ∈ us, Marked (applyUnits w lib id us s).1 (w.oldSym (getBasename lib) u.oldName u.oldAddr) id := by
  induction us generalizing s with
  | nil => simp
  | cons u us ih =>
    intro x hx
    simp only [applyUnits] at h ⊢
    split at h
    · simp [ENOOLDFUNC] at h
    rename_i h1
    split at h
    · simp [ENONEWFUNC] at h
    rename_i h2
    rw [if_neg h1, if_neg h2]
    split at h
    · rename_i h3; exact absurd h (Nat.pos_iff_ne_zero.mp h3)
    rename_i h3
    rw [if_neg h3]
    rcases List.mem_cons.mp hx with rfl | hx
    · apply applyUnits_marked
      exact (addDetour_marks _ _ _).of_roots (patchAddr_roots _ _ _ _)
    · exact ih _ h x hx

theorem applyRefs_roots {w tb ti so} (refs : List RefM) (s : State) : (applyRefs w tb ti so refs s).1.roots = s.roots := by
  induction refs generalizing s with
  | nil => rfl
  | cons r rs ih =>
    simp only [applyRefs]
    generalize (if r.patchOff = 0 then w.newSym r.refName else (so + r.patchOff) % 2 ^ 64) = addr
    by_cases h : r.patchOff = 0 ∧ addr = 0
    · rw [if_pos h]
    · rw [if_neg h, ih]; rfl

theorem applyAllUnits_roots (w : World) (m : Meta) (s : State) :
    (applyAllUnits w m s).1.roots = (applyUnits w m.lib m.id m.units { s with univ := s.univ + 1 }).1.roots := by
  unfold applyAllUnits
  simp only
  split
  · rfl
  split
  · rfl
  split
  · rfl
  · split
    · rfl
    · exact applyRefs_roots _ _

theorem revertPatch_marked {s : State} {f i} (id) (h : Marked s f i) : Marked (revertPatch s id).1 f i := by
  unfold Marked
  rw [revertPatch_roots]
  obtain ⟨r, hr, hrf, d, hd, hdi⟩ := h
  refine ⟨_, List.mem_map.mpr ⟨r, hr, rfl⟩, hrf, deact id d, List.mem_map.mpr ⟨d, hd, rfl⟩, ?_⟩
  unfold deact; split <;> exact hdi

theorem loadPatch_marked {w m} {s : State} {f i} (h : Marked s f i) : Marked (loadPatch w m s).1 f i := by
  unfold loadPatch
  simp only
  generalize (if m.type = 2 then 0 else sanity w m s) = e
  by_cases h1 : e ≠ 0
  · rw [if_pos h1]; exact h
  rw [if_neg h1]
  by_cases h2 : m.type ≠ 2 ∧ (!w.dlopenOk) = true
  · rw [if_pos h2]; exact h
  rw [if_neg h2]
  by_cases h3 : m.type = 1
  · rw [if_pos h3]
    cases hu : stateUpdate w m s with
    | none => exact h
    | some s0 =>
      simp only
      have h0 : Marked s0 f i := by
        refine h.of_roots ?_
        unfold stateUpdate at hu
        cases hr : resolveUnits w m.lib m.units with
        | none => simp [hr] at hu
        | some us => simp [hr] at hu; rw [← hu]
      have h4 : Marked (applyAllUnits w m s0).1 f i := by
        unfold Marked
        rw [applyAllUnits_roots]
        exact applyUnits_marked _ _ (h0.of_roots rfl)
      split
      · exact h4.of_roots rfl
      · exact h4
  rw [if_neg h3]
  by_cases h4 : m.type = 2
  · rw [if_pos h4]
    split
    · exact h
    · exact revertPatch_marked _ h
  rw [if_neg h4]
  split <;> exact h

theorem loadPatch_marks {w m} {s : State} (ht : m.type = 1) (h : (loadPatch w m s).2 = 0) :
    ∀ u ∈ m.units, Marked (loadPatch w m s).1 (w.oldSym (getBasename m.lib) u.oldName u.oldAddr) m.id := by
  intro u hu
  unfold loadPatch at h ⊢
  simp only [ht] at h ⊢
  rw [if_neg (show ¬ (1 : Nat) = 2 by decide)] at h ⊢
  by_cases h1 : sanity w m s ≠ 0
  · rw [if_pos h1] at h; exact absurd h h1
  rw [if_neg h1] at h ⊢
  by_cases h2 : (1 : Nat) ≠ 2 ∧ (!w.dlopenOk) = true
  · rw [if_pos h2] at h; simp [EDLOPEN] at h
  rw [if_neg h2, if_pos trivial] at h ⊢
  cases hs : stateUpdate w m s with
  | none => rw [hs] at h; simp [ESTATE] at h
  | some s0 =>
    rw [hs] at h
    simp only at h ⊢
    by_cases h3 : (applyAllUnits w m s0).2 ≠ 0
    · rw [if_pos h3] at h; exact absurd h h3
    rw [if_neg h3]
    have h3 : (applyAllUnits w m s0).2 = 0 := Decidable.not_not.mp h3
    unfold Marked
    simp only [applyAllUnits_roots]
    refine applyUnits_marks _ _ ?_ u hu
    unfold applyAllUnits at h3
    simp only at h3
    by_cases h4 : (applyUnits w m.lib m.id m.units { s0 with univ := s0.univ + 1 }).2 ≠ 0
    · rw [if_pos h4] at h3; exact h3
    · exact Decidable.not_not.mp h4

theorem gate_roots (w : World) (s : State) : (gate w s).1.roots = s.roots := by
  unfold gate
  split
  · rfl
  · simp only
    split
    · rfl
    · split <;> rfl

theorem settle_roots (s : State) : (settle s).roots = s.roots := rfl

theorem revertAllLoop_marked {base} (fuel : Nat) (rem : List Applied) (ret : Err) (s : State) {f i s' a}
    (h : Marked s f i) (hr : revertAllLoop base fuel rem ret s = some (s', a)) : Marked s' f i := by
  induction fuel generalizing rem ret s with
  | zero =>
    cases rem with
    | nil => simp [revertAllLoop] at hr; rw [← hr.1]; exact h
    | cons p rest => simp [revertAllLoop] at hr
  | succ n ih =>
    cases rem with
    | nil => simp [revertAllLoop] at hr; rw [← hr.1]; exact h
    | cons p rest =>
      simp only [revertAllLoop] at hr
      split at hr
      · split at hr
        · exact ih _ _ _ h hr
        · split at hr
          · simp only [Option.some.injEq, Prod.mk.injEq] at hr
            rw [← hr.1]; exact revertPatch_marked _ h
          · exact ih _ _ _ (revertPatch_marked _ h) hr
      · exact ih _ _ _ h hr

theorem serve_marked {fuel} {s s' : State} {f i r a} (h : Marked s f i) (hs : serve fuel s r = some (s', a)) :
    Marked s' f i := by
  cases r with
  | apply w m =>
    simp only [serve, Option.some.injEq, Prod.mk.injEq] at hs
    rw [← hs.1]
    refine Marked.of_roots ?_ (settle_roots _)
    unfold applyPatch
    have hg := gate_roots w s
    rcases hgate : gate w s with ⟨s1, o⟩
    rw [hgate] at hg
    have h1 : Marked s1 f i := h.of_roots hg
    cases o with
    | some e => exact h1
    | none =>
      cases m with
      | error e => exact h1
      | ok m => exact loadPatch_marked h1
  | revertAll w lib =>
    simp only [serve] at hs
    cases hr : revertAll fuel w lib s with
    | none => simp [hr] at hs
    | some p =>
      simp only [hr, Option.map_some, Option.some.injEq, Prod.mk.injEq] at hs
      rw [← hs.1]
      refine Marked.of_roots ?_ (settle_roots _)
      unfold revertAll at hr
      have hg := gate_roots w s
      rcases hgate : gate w s with ⟨s1, o⟩
      rw [hgate] at hg hr
      have h1 : Marked s1 f i := h.of_roots hg
      cases o with
      | some e => simp only [Option.some.injEq] at hr; rw [← hr]; exact h1
      | none =>
        simp only at hr
        split at hr
        · simp only [Option.some.injEq] at hr; rw [← hr]; exact h1
        · cases hl : revertAllLoop (getBasename lib) fuel s1.patches ENOTARGETLIB s1 with
          | none => simp [hl] at hr
          | some q =>
            have h2 := revertAllLoop_marked _ _ _ _ h1 hl
            simp only [hl, Option.map_some, Option.some.injEq] at hr
            rw [← hr]
            split <;> exact h2
  | check id =>
    simp only [serve, Option.some.injEq, Prod.mk.injEq] at hs
    rw [← hs.1]; exact h
  | toggle =>
    simp only [serve, Option.some.injEq] at hs
    have : s' = (toggle s).1 := by rw [hs]
    rw [this]
    refine h.of_roots ?_
    unfold toggle
    simp only
    split
    · rfl
    · split <;> rfl

theorem run_marked {fuel} (es : List Event) {p p' : Proc} {as f i} (h : Marked p.s f i)
    (hr : run fuel p es = .alive p' as) : Marked p'.s f i := by
  induction es generalizing p p' as with
  | nil => simp only [run, Out.alive.injEq] at hr; rw [← hr.1]; exact h
  | cons e es ih =>
    simp only [run] at hr
    cases hs : step fuel p e with
    | alive p1 as1 =>
      rw [hs] at hr
      simp only at hr
      cases hr2 : run fuel p1 es with
      | alive p2 as2 =>
        rw [hr2] at hr
        simp only [Out.alive.injEq] at hr
        rw [← hr.1]
        refine ih ?_ hr2
        cases e with
        | request r =>
          simp only [step] at hs
          split at hs
          · simp at hs
          · cases hv : serve fuel p.s r with
            | none => simp [hv] at hs
            | some q =>
              obtain ⟨s1, a⟩ := q
              simp only [hv, Out.alive.injEq] at hs
              rw [← hs.1]
              exact serve_marked h hv
        | unmap lo hi => simp only [step, Out.alive.injEq] at hs; rw [← hs.1]; exact h
        | load lo bs => simp only [step, Out.alive.injEq] at hs; rw [← hs.1]; exact h.of_roots rfl
      | crashed => rw [hr2] at hr; simp at hr
      | stuck => rw [hr2] at hr; simp at hr
    | crashed => rw [hs] at hr; simp at hr
    | stuck => rw [hs] at hr; simp at hr

end Verif.Unload
