import Verif.PowerUnload.Spec
import Verif.Unload.Lemmas
import Verif.Power.Invariant

/-! Supporting lemmas for `Verif.PowerUnload.Props`. -/

namespace Verif.Power.Gone

open Verif.Runtime hiding Good Inv area loadPatch_apply_ok
open Verif.Runtime.Spec (Patch track trackAll replacement healthy Idle patchOf libKey refAddr refSize)
open Power.Spec (callDest entryOff body inStub inPad Image Fits)
open Verif.InsnQueue (Req Holds touches Queue)
open Verif.InsnQueue.Spec (perform)
open Verif.Unload (Proc Event Out readsUnmapped Marked stackOf_mem readsUnmapped_false addDetour_marked addDetour_marks Marked.of_roots gate_roots
  settle_roots)
open Verif.Unload.Spec (requests IsRevert)
open Verif.Power.Gone.Spec

variable {tm : List UInt8}

/-! ### reverting over memory that is not as libpulp left it -/

/-- The bytes needed for telling where the NOP is. -/
def StartAt (m : Mem) (off f : Nat) : Prop :=
  (off = 0 ∨ off = 8) ∧ (off = 8 → m.load f 4 ≠ Ppc.nop ∧ m.load f 4 ≠ Ppc.branchBytes 0)

theorem StartAt.congr {m m' : Mem} {off f} (h : ∀ i, pad off f i → m i = m' i) (he : StartAt m off f) : StartAt m' off f := by
  refine ⟨he.1, fun h8 => ?_⟩
  have : m'.load f 4 = m.load f 4 := load_congr fun i h1 h2 => (h i ⟨by omega, by omega⟩).symm
  rw [this]; exact he.2 h8

theorem StartAt.of_entry {m : Mem} {off f x} (h : Entry tm m off f x) : StartAt m off f := ⟨h.offs, h.start⟩

theorem entryWrites_any {m : Mem} {off f} (y) (ht : tm.length = 44) (hf : 52 ≤ f) (h : StartAt m off f) :
    Entry tm (perform m (entryWrites tm off f y)) off f y := by
  have hfr : ∀ i, ¬ cell off f i → perform m (entryWrites tm off f y) i = m i := fun i hi =>
    perform_inSet (entryWrites_inSet ht hf) hi
  refine ⟨h.1, fun ho => ?_, ?_, fun g hg => ?_⟩
  · have : (perform m (entryWrites tm off f y)).load f 4 = m.load f 4 :=
      load_congr fun i a b => hfr i (by unfold cell; omega)
    rw [this]; exact h.2 ho
  · cases y with
    | none =>
      simp only [entryWrites, perform]
      exact load_store (bytes := Ppc.nop)
    | some g =>
      simp only [entryWrites, perform]
      have := load_store (m := m.store (f - 52) (tm ++ le 8 g)) (a := f + off) (bytes := Ppc.branchBytes off)
      rw [Ppc.branch_length] at this
      simpa using this
  · subst hg
    simp only [entryWrites, perform]
    have hl : (tm ++ le 8 g).length = 52 := by simp [ht]
    have h1 := load_store (m := m) (a := f - 52) (bytes := tm ++ le 8 g)
    rw [hl] at h1
    rw [load_store_out (by omega)]
    exact h1

theorem map_deact_of_ne {id} {rest : List Detour} (hno : ∀ d ∈ rest, d.id ≠ id) : rest.map (deact id) = rest := by
  conv => rhs; rw [← List.map_id rest]
  apply List.map_congr_left
  intro d hd
  simp [deact, hno d hd]

/-- Reverting on one function, whatever its entry was. -/
theorem revertRoot_any {id f off} (htl : tm.length = 44) (hf : 52 ≤ f) (hf2 : f + 12 < 2 ^ 64) (done rest : List Detour) (s : State)
    (hp : Ppc.getBranchOffset s.mem f = some off) :
    ∃ ws, Emits s (revertRoot tm id f done rest s).1 ws ∧ InSet (cell off f) ws ∧
      (∀ m, StartAt m off f → (∃ d ∈ rest, d.id = id) → Entry tm (perform m ws) off f (top (done ++ rest.map (deact id)))) ∧
      ((∀ d ∈ rest, d.id ≠ id) → ws = []) := by
  induction rest generalizing done s with
  | nil => exact ⟨[], Emits.refl _, by simp [InSet], fun m _ h => by simp at h, fun _ => rfl⟩
  | cons d rest ih =>
    rw [revertRoot_cons]
    by_cases hd : d.id = id
    · rw [if_pos hd]
      have h1 := (patchAddr_ready (s := s) (top (done ++ { d with active := false } :: rest)) htl hp hf2).1
      generalize hs1 : (patchAddr tm s f ((top (done ++ { d with active := false } :: rest)).getD 0)
            (top (done ++ { d with active := false } :: rest)).isSome).1 = s1 at h1 ⊢
      have hm : s1.mem = s.mem := h1.mem
      obtain ⟨ws, j1, j2, j3, j4⟩ := ih (done ++ [{ d with active := false }]) s1 (by rw [hm]; exact hp)
      refine ⟨_, h1.trans j1, (entryWrites_inSet htl hf).append j2, ?_, fun h => absurd hd (h d (by simp))⟩
      intro m hm _
      have h2 := entryWrites_any (top (done ++ { d with active := false } :: rest)) htl hf hm
      rw [perform_append]
      by_cases hx : ∃ d ∈ rest, d.id = id
      · have := j3 _ (StartAt.of_entry h2) hx
        simpa [deact, hd] using this
      · have hno : ∀ d ∈ rest, d.id ≠ id := fun d hd hc => hx ⟨d, hd, hc⟩
        rw [j4 hno]
        simpa [perform, deact, hd, map_deact_of_ne hno] using h2
    · rw [if_neg hd]
      obtain ⟨ws, j1, j2, j3, j4⟩ := ih (done ++ [d]) s hp
      refine ⟨ws, j1, j2, ?_, fun h => j4 (fun d hd => h d (by simp [hd]))⟩
      intro m hm hx
      obtain ⟨x, hx, hxi⟩ := hx
      rcases List.mem_cons.mp hx with rfl | hx
      · exact absurd hxi hd
      have := j3 m hm ⟨x, hx, hxi⟩
      simpa [deact, hd] using this

/-- Reverting on all functions, whatever their entries `X` were. -/
theorem revertRoots_any {id} {e0 : Nat → Nat} (htl : tm.length = 44) (rs : List Root) (s : State)
    (hv : ∀ r ∈ rs, 52 ≤ r.addr ∧ r.addr + 12 < 2 ^ 64)
    (hready : ∀ r ∈ rs, Ppc.getBranchOffset s.mem r.addr = some (e0 r.addr))
    (hnd : (rs.map (fun r => r.addr)).Nodup)
    (hdis : ∀ r ∈ rs, ∀ r' ∈ rs, ∀ i, pad (e0 r.addr) r.addr i → pad (e0 r'.addr) r'.addr i → r.addr = r'.addr) :
    ∃ ws, Emits s (revertRoots tm id rs s).1 ws ∧
      InSet (fun i => ∃ r ∈ rs, cell (e0 r.addr) r.addr i) ws ∧
      ∀ (m : Mem) (X : Nat → Option Nat), (∀ r ∈ rs, Entry tm m (e0 r.addr) r.addr (X r.addr)) →
        ∀ r ∈ rs, ((∃ d ∈ r.detours, d.id = id) ∨ X r.addr = top (r.detours.map (deact id))) →
          Entry tm (perform m ws) (e0 r.addr) r.addr (top (r.detours.map (deact id))) := by
  induction rs generalizing s with
  | nil => exact ⟨[], Emits.refl _, by simp [InSet], by simp⟩
  | cons r rs ih =>
    simp only [revertRoots]
    obtain ⟨hv1, hv2⟩ := hv r (by simp)
    have hp := hready r (by simp)
    obtain ⟨w1, a1, a2, a3, a4⟩ := revertRoot_any (id := id) htl hv1 hv2 [] r.detours s hp
    have hm := (revertRoot_fields tm id r.addr [] r.detours s).2.2.2.1
    simp only [List.map_cons, List.nodup_cons] at hnd
    obtain ⟨w2, b1, b2, b3⟩ := ih (revertRoot tm id r.addr [] r.detours s).1
      (fun r hr => hv r (by simp [hr])) (by rw [hm]; exact fun r hr => hready r (by simp [hr])) hnd.2
      (fun r hr r' hr' => hdis r (by simp [hr]) r' (by simp [hr']))
    refine ⟨w1 ++ w2, a1.trans b1, ?_, ?_⟩
    · refine InSet.append (a2.mono fun i hi => ⟨r, by simp, hi⟩) (b2.mono ?_)
      rintro i ⟨x, hx, hi⟩
      exact ⟨x, by simp [hx], hi⟩
    · intro m X hent x hx hor
      rw [perform_append]
      rcases List.mem_cons.mp hx with rfl | hx
      · have h1 : Entry tm (perform m w1) (e0 x.addr) x.addr (top (x.detours.map (deact id))) := by
          by_cases hh : ∃ d ∈ x.detours, d.id = id
          · have := a3 m (StartAt.of_entry (hent x (by simp))) hh
            simpa using this
          · rw [a4 (fun d hd hc => hh ⟨d, hd, hc⟩)]
            rcases hor with h | h
            · exact absurd h hh
            · rw [← h]; exact hent x (by simp)
        refine Entry.congr hv1 ?_ h1
        intro i hi
        refine (perform_inSet b2 ?_).symm
        rintro ⟨y, hy, hyi⟩
        have := hdis x (by simp) y (by simp [hy]) i hi (cell_pad hyi)
        exact hnd.1 (List.mem_map.mpr ⟨y, hy, this.symm⟩)
      · refine b3 _ X ?_ x hx hor
        intro y hy
        refine Entry.congr (hv y (by simp [hy])).1 ?_ (hent y (by simp [hy]))
        intro i hi
        refine (perform_inSet a2 ?_).symm
        intro hri
        have := hdis r (by simp) y (by simp [hy]) i (cell_pad hri) hi
        exact hnd.1 (List.mem_map.mpr ⟨y, hy, this.symm⟩)

/-- Bytes around `f` that `ulp_patch_addr` may write, whatever is there. -/
def near (f i : Nat) : Prop := f - 52 ≤ i ∧ i < f + 12

theorem cell_near {off f i} (ho : off = 0 ∨ off = 8) (h : cell off f i) : near f i := by
  unfold cell at h; unfold near; omega

/-- What `ulp_patch_addr` writes at a function whose NOP is not found. -/
def lostWrites (tm : List UInt8) (f : Nat) : Option Nat → List Req
  | none => []
  | some g => [.write (f - 52) (tm ++ le 8 g)]

theorem patchAddr_lost {s : State} {f} (x : Option Nat) (ht : tm.length = 44)
    (hp : Ppc.getBranchOffset s.mem f = none) (hf : f + 12 < 2 ^ 64) :
    Emits s (patchAddr tm s f (x.getD 0) x.isSome).1 (lostWrites tm f x) := by
  cases x with
  | none =>
    have he : Ppc.patchAddr tm s.mem f 0 false = (ENOPATCHABLE, []) := by simp [Ppc.patchAddr, hp]
    simp only [patchAddr, Option.getD_none, Option.isSome_none, he]
    exact memwrites_emits s _ (by simp)
  | some g =>
    have he : Ppc.patchAddr tm s.mem f g true = (ENOPATCHABLE, [(f - 52, tm ++ le 8 g)]) := by
      simp [Ppc.patchAddr, hp, Ppc.prologue, Ppc.preLen]
    simp only [patchAddr, Option.getD_some, Option.isSome_some, he]
    refine memwrites_emits s _ ?_
    intro w hw
    simp only [List.mem_singleton] at hw
    subst hw
    exact ⟨by simp only; omega, by simp [ht]⟩

/-- Whatever is at `f`: what is written stays near, and enabling stores the stub. -/
theorem patchAddr_near {s : State} {f} (x : Option Nat) (ht : tm.length = 44) (hf : 52 ≤ f) (hf2 : f + 12 < 2 ^ 64) :
    ∃ ws, Emits s (patchAddr tm s f (x.getD 0) x.isSome).1 ws ∧ InSet (near f) ws ∧
      ∀ g, x = some g → ∀ m, (perform m ws).load (f - 52) 52 = tm ++ le 8 g := by
  cases hp : Ppc.getBranchOffset s.mem f with
  | some off =>
    refine ⟨_, (patchAddr_ready x ht hp hf2).1, (entryWrites_inSet ht hf).mono fun i => cell_near (Ppc.offset_cases hp), ?_⟩
    rintro g rfl m
    simp only [entryWrites, perform]
    have hl : (tm ++ le 8 g).length = 52 := by simp [ht]
    have h1 := load_store (m := m) (a := f - 52) (bytes := tm ++ le 8 g)
    rw [hl] at h1
    rw [load_store_out (by omega)]
    exact h1
  | none =>
    refine ⟨_, patchAddr_lost x ht hp hf2, ?_, ?_⟩
    · intro w hw i hi
      cases x with
      | none => simp [lostWrites] at hw
      | some g =>
        simp only [lostWrites, List.mem_singleton] at hw
        subst hw
        simp only [touches, List.length_append, ht, le_length] at hi
        unfold near; omega
    · rintro g rfl m
      simp only [lostWrites, perform]
      have hl : (tm ++ le 8 g).length = 52 := by simp [ht]
      have h1 := load_store (m := m) (a := f - 52) (bytes := tm ++ le 8 g)
      rwa [hl] at h1

/-- Reverting on one function, whatever is there: if an older replacement is left, its stub is stored. -/
theorem revertRoot_near {id f} (htl : tm.length = 44) (hf : 52 ≤ f) (hf2 : f + 12 < 2 ^ 64) (done rest : List Detour) (s : State) :
    ∃ ws, Emits s (revertRoot tm id f done rest s).1 ws ∧ InSet (near f) ws ∧
      (∀ m g, (∃ d ∈ rest, d.id = id) → top (done ++ rest.map (deact id)) = some g →
        (perform m ws).load (f - 52) 52 = tm ++ le 8 g) ∧
      ((∀ d ∈ rest, d.id ≠ id) → ws = []) := by
  induction rest generalizing done s with
  | nil => exact ⟨[], Emits.refl _, by simp [InSet], fun m _ h => by simp at h, fun _ => rfl⟩
  | cons d rest ih =>
    rw [revertRoot_cons]
    by_cases hd : d.id = id
    · rw [if_pos hd]
      obtain ⟨w1, h1, h2, h3⟩ := patchAddr_near (s := s) (top (done ++ { d with active := false } :: rest)) htl hf hf2
      generalize hs1 : (patchAddr tm s f ((top (done ++ { d with active := false } :: rest)).getD 0)
            (top (done ++ { d with active := false } :: rest)).isSome).1 = s1 at h1 ⊢
      obtain ⟨ws, j1, j2, j3, j4⟩ := ih (done ++ [{ d with active := false }]) s1
      refine ⟨_, h1.trans j1, h2.append j2, ?_, fun h => absurd hd (h d (by simp))⟩
      intro m g _ htop
      rw [perform_append]
      have htop' : top (done ++ { d with active := false } :: rest.map (deact id)) = some g := by
        simpa [deact, hd] using htop
      by_cases hx : ∃ d ∈ rest, d.id = id
      · exact j3 _ g hx (by simpa using htop')
      · have hno : ∀ d ∈ rest, d.id ≠ id := fun d hd hc => hx ⟨d, hd, hc⟩
        rw [j4 hno]
        rw [map_deact_of_ne hno] at htop'
        simpa [perform] using h3 g htop' m
    · rw [if_neg hd]
      obtain ⟨ws, j1, j2, j3, j4⟩ := ih (done ++ [d]) s
      refine ⟨ws, j1, j2, ?_, fun h => j4 (fun d hd => h d (by simp [hd]))⟩
      intro m g hx htop
      obtain ⟨x, hx, hxi⟩ := hx
      rcases List.mem_cons.mp hx with rfl | hx
      · exact absurd hxi hd
      exact j3 m g ⟨x, hx, hxi⟩ (by simpa [deact, hd] using htop)

theorem revertRoots_near {id} {A : Nat → Prop} (htl : tm.length = 44) (rs : List Root) (s : State)
    (hv : ∀ r ∈ rs, 52 ≤ r.addr ∧ r.addr + 12 < 2 ^ 64) (hA : ∀ r ∈ rs, ∀ i, near r.addr i → A i) :
    ∃ ws, Emits s (revertRoots tm id rs s).1 ws ∧ InSet A ws := by
  induction rs generalizing s with
  | nil => exact ⟨[], Emits.refl _, by simp [InSet]⟩
  | cons r rs ih =>
    simp only [revertRoots]
    obtain ⟨w1, a1, a2, _⟩ := revertRoot_near (id := id) htl (hv r (by simp)).1 (hv r (by simp)).2 [] r.detours s
    obtain ⟨w2, b1, b2⟩ := ih (revertRoot tm id r.addr [] r.detours s).1 (fun r hr => hv r (by simp [hr]))
      (fun r hr => hA r (by simp [hr]))
    exact ⟨w1 ++ w2, a1.trans b1, (a2.mono (hA r (by simp))).append b2⟩

/-- Reverting, seen from one function; the others only write close to themselves. -/
theorem revertRoots_at {id f} {A : Nat → Prop} (htl : tm.length = 44) (rs : List Root) (s : State)
    (hv : ∀ r ∈ rs, 52 ≤ r.addr ∧ r.addr + 12 < 2 ^ 64)
    (hA : ∀ r ∈ rs, r.addr ≠ f → ∀ i, near r.addr i → A i)
    (hnd : (rs.map (fun r => r.addr)).Nodup) (r : Root) (hr : r ∈ rs) (hrf : r.addr = f) :
    ∃ w1 ws w2 s0 s1, Emits s (revertRoots tm id rs s).1 (w1 ++ (ws ++ w2)) ∧ InSet A w1 ∧ InSet A w2 ∧
      s0.mem = s.mem ∧ s1 = (revertRoot tm id f [] r.detours s0).1 ∧ Emits s0 s1 ws ∧ Emits s s0 w1 ∧
      Emits s1 (revertRoots tm id rs s).1 w2 := by
  induction rs generalizing s with
  | nil => simp at hr
  | cons x rs ih =>
    simp only [revertRoots]
    simp only [List.map_cons, List.nodup_cons] at hnd
    have hm := (revertRoot_fields tm id x.addr [] x.detours s).2.2.2.1
    obtain ⟨hv1, hv2⟩ := hv x (by simp)
    obtain ⟨wx, a1, a2, _⟩ := revertRoot_near (id := id) htl hv1 hv2 [] x.detours s
    rcases List.mem_cons.mp hr with rfl | hr
    · obtain ⟨w2, b1, b2⟩ := revertRoots_near (id := id) (A := A) htl rs (revertRoot tm id r.addr [] r.detours s).1
        (fun r hr => hv r (by simp [hr])) (fun y hy => hA y (by simp [hy]) (fun hc =>
          hnd.1 (List.mem_map.mpr ⟨y, hy, hc.trans hrf.symm⟩)))
      exact ⟨[], wx, w2, s, _, by simpa using a1.trans b1, by simp [InSet], b2, rfl, by rw [← hrf], a1, Emits.refl _, b1⟩
    · have hxf : x.addr ≠ f := fun hc => hnd.1 (List.mem_map.mpr ⟨r, hr, hrf.trans hc.symm⟩)
      obtain ⟨w1, ws, w2, s0, s1, e1, e2, e3, e4, e5, e6, e7, e8⟩ := ih (revertRoot tm id x.addr [] x.detours s).1
        (fun r hr => hv r (by simp [hr])) (fun y hy => hA y (by simp [hy])) hnd.2 hr
      refine ⟨wx ++ w1, ws, w2, s0, s1, ?_, (a2.mono (hA x (by simp) hxf)).append e2, e3, by rw [e4, hm], e5, e6, a1.trans e7, e8⟩
      simpa using a1.trans e1

theorem lostWrites_inSet {f x} (ht : tm.length = 44) (hf : 52 ≤ f) :
    InSet (fun i => f - 52 ≤ i ∧ i < f) (lostWrites tm f x) := by
  intro w hw i hi
  cases x with
  | none => simp [lostWrites] at hw
  | some g =>
    simp only [lostWrites, List.mem_singleton] at hw
    subst hw
    simp only [touches, List.length_append, ht, le_length] at hi
    show f - 52 ≤ i ∧ i < f
    omega

/-- Where no NOP is found, only the bytes of the stub may be written. -/
theorem revertRoot_lost {id f} (htl : tm.length = 44) (hf : 52 ≤ f) (hf2 : f + 12 < 2 ^ 64) (done rest : List Detour) (s : State)
    (hp : Ppc.getBranchOffset s.mem f = none) :
    ∃ ws, Emits s (revertRoot tm id f done rest s).1 ws ∧ InSet (fun i => f - 52 ≤ i ∧ i < f) ws := by
  induction rest generalizing done s with
  | nil => exact ⟨[], Emits.refl _, by simp [InSet]⟩
  | cons d rest ih =>
    rw [revertRoot_cons]
    split
    · have h1 := patchAddr_lost (s := s) (top (done ++ { d with active := false } :: rest)) htl hp hf2
      have hm := h1.mem
      obtain ⟨ws, j1, j2⟩ := ih (done ++ [{ d with active := false }]) _ (by rw [hm]; exact hp)
      exact ⟨_, h1.trans j1, (lostWrites_inSet htl hf).append j2⟩
    · exact ih _ s hp

theorem revertRoots_lost {id} (htl : tm.length = 44) (rs : List Root) (s : State)
    (hv : ∀ r ∈ rs, 52 ≤ r.addr ∧ r.addr + 12 < 2 ^ 64) (hp : ∀ r ∈ rs, Ppc.getBranchOffset s.mem r.addr = none) :
    ∃ ws, Emits s (revertRoots tm id rs s).1 ws ∧ InSet (fun i => ∃ r ∈ rs, r.addr - 52 ≤ i ∧ i < r.addr) ws := by
  induction rs generalizing s with
  | nil => exact ⟨[], Emits.refl _, by simp [InSet]⟩
  | cons r rs ih =>
    simp only [revertRoots]
    have hm := (revertRoot_fields tm id r.addr [] r.detours s).2.2.2.1
    obtain ⟨w1, a1, a2⟩ := revertRoot_lost (id := id) htl (hv r (by simp)).1 (hv r (by simp)).2 [] r.detours s (hp r (by simp))
    obtain ⟨w2, b1, b2⟩ := ih (revertRoot tm id r.addr [] r.detours s).1 (fun r hr => hv r (by simp [hr]))
      (by rw [hm]; exact fun r hr => hp r (by simp [hr]))
    refine ⟨w1 ++ w2, a1.trans b1, (a2.mono fun i hi => ⟨r, by simp, hi⟩).append (b2.mono ?_)⟩
    rintro i ⟨x, hx, hi⟩
    exact ⟨x, by simp [hx], hi⟩

/-! ### the program changing its memory -/

theorem image_off {m₀ m' : Mem} {f} (hf : 52 ≤ f)
    (h : ∀ i, inPad m₀ f i → m' i = m₀ i) : entryOff m' f = entryOff m₀ f := by
  have : m'.load f 4 = m₀.load f 4 := load_congr fun i h1 h2 => h i (by unfold inPad body; omega)
  unfold entryOff; rw [this]

theorem image_inPad {m₀ m' : Mem} {f} (hf : 52 ≤ f)
    (h : ∀ i, inPad m₀ f i → m' i = m₀ i) (i) : inPad m' f i ↔ inPad m₀ f i := by
  rw [inPad_iff, inPad_iff, image_off hf h]

theorem image_congr {m₀ m' : Mem} {F slot} (hI : Image m₀ F slot)
    (h : ∀ f, F f → ∀ i, inPad m₀ f i → m' i = m₀ i) : Image m' F slot := by
  refine ⟨hI.range, ?_, ?_, ?_, ?_⟩
  · intro f hf
    rw [image_off (hI.range f hf).1 (h f hf), ← hI.nop f hf]
    exact load_congr fun i h1 h2 => h f hf i (by unfold inPad body; omega)
  · intro f hf
    have : m'.load f 4 = m₀.load f 4 := load_congr fun i h1 h2 => h f hf i (by unfold inPad body; omega)
    rw [this]; exact hI.start f hf
  · intro f g i hf hg h1 h2
    exact hI.disjoint f g i hf hg ((image_inPad (hI.range f hf).1 (h f hf) i).mp h1)
      ((image_inPad (hI.range g hg).1 (h g hg) i).mp h2)
  · intro f i hf h1
    exact hI.slots f i hf ((image_inPad (hI.range f hf).1 (h f hf) i).mp h1)

theorem used_congr {m₀ m' : Mem} {F slot} (hI : Image m₀ F slot)
    (h : ∀ f, F f → ∀ i, inPad m₀ f i → m' i = m₀ i) (i) : used m' F slot i ↔ used m₀ F slot i := by
  unfold used
  constructor
  · rintro (⟨f, hf, hi⟩ | hi)
    · exact Or.inl ⟨f, hf, (image_inPad (hI.range f hf).1 (h f hf) i).mp hi⟩
    · exact Or.inr hi
  · rintro (⟨f, hf, hi⟩ | hi)
    · exact Or.inl ⟨f, hf, (image_inPad (hI.range f hf).1 (h f hf) i).mpr hi⟩
    · exact Or.inr hi

theorem area_congr {m₀ m' : Mem} {F slot} (hI : Image m₀ F slot)
    (h : ∀ f, F f → ∀ i, inPad m₀ f i → m' i = m₀ i) (i) : area m' F slot i ↔ area m₀ F slot i := by
  have : ∀ f, F f → (inStub m' f i ↔ inStub m₀ f i) := fun f hf => by
    rw [inStub_iff, inStub_iff, image_off (hI.range f hf).1 (h f hf)]
  unfold area
  constructor
  · rintro (⟨f, hf, hi⟩ | hi)
    · exact Or.inl ⟨f, hf, (this f hf).mp hi⟩
    · exact Or.inr hi
  · rintro (⟨f, hf, hi⟩ | hi)
    · exact Or.inl ⟨f, hf, (this f hf).mpr hi⟩
    · exact Or.inr hi

/-- The invariant does not depend on memory outside of pads and slots. -/
theorem inv_program {m₀ m' : Mem} {F slot s ps} (hI : Image m₀ F slot) (hinv : Inv tm m₀ F slot s ps) (mem' : Mem)
    (h0 : ∀ i, used m₀ F slot i → m' i = m₀ i) (h1 : ∀ i, used m₀ F slot i → mem' i = s.mem i)
    (h2 : ∀ i, ¬ area m₀ F slot i → mem' i = m' i) : Inv tm m' F slot { s with mem := mem' } ps := by
  have hpad : ∀ f, F f → ∀ i, inPad m₀ f i → m' i = m₀ i := fun f hf i hi => h0 i (Or.inl ⟨f, hf, hi⟩)
  refine ⟨⟨hinv.clean.num, hinv.clean.size, hinv.clean.ver⟩, hinv.book, ?_, ?_⟩
  · intro i hi
    exact h2 i (fun hc => hi ((area_congr hI hpad i).mpr hc))
  · intro hh
    have hg := hinv.good hh
    refine ⟨hg.shown, hg.ids, hg.libs, hg.deps, hg.nodup, hg.inF, hg.targets, hg.stacks, ?_, hg.univs⟩
    intro f hf
    rw [image_off (hI.range f hf).1 (hpad f hf)]
    refine Entry.congr (hI.range f hf).1 ?_ (hg.entries f hf)
    intro i hi
    exact (h1 i (Or.inl ⟨f, hf, (inPad_iff _ _ _).mpr hi⟩)).symm

/-! ### no crash while everything stays mapped -/

theorem revertPatch_roots (s : State) (id) :
    (revertPatch tm s id).1.roots = s.roots.map (fun r => { r with detours := r.detours.map (deact id) }) := by
  obtain ⟨f1, f2, f3, f4, f5⟩ := revertRoots_fields tm id s.roots { s with univ := s.univ + 1 }
  unfold revertPatch stateRemove
  exact f5

theorem loopReads_false {mapped : Nat → Bool} {base} (fuel : Nat) (rem : List Applied) (s : State)
    (h : ∀ r ∈ s.roots, mapped r.addr = true) : loopReads tm mapped base fuel rem s = false := by
  induction fuel generalizing rem s with
  | zero => cases rem <;> rfl
  | succ n ih =>
    cases rem with
    | nil => rfl
    | cons p rest =>
      simp only [loopReads]
      rw [readsUnmapped_false h, ih rest s h]
      have h2 : ∀ r ∈ (revertPatch tm s p.id).1.roots, mapped r.addr = true := by
        rw [revertPatch_roots]
        intro r hr
        obtain ⟨x, hx, rfl⟩ := List.mem_map.mp hr
        exact h x hx
      rw [ih rest _ h2]
      simp

theorem crashes_false {fuel : Nat} {p : Proc} (hi : Idle p.s)
    (h : p.s.err = ENONE → ∀ r ∈ p.s.roots, p.mapped r.addr = true) (r : Request) : crashes tm fuel p r = false := by
  have hgate : ∀ w, gate w p.s = (p.s, some p.s.err) ∨ gate w p.s = (p.s, some EAGAIN) ∨
      (p.s.err = ENONE ∧ gate w p.s = (p.s, none)) := by
    intro w
    rw [gate_clean hi]
    by_cases he : p.s.err ≠ ENONE
    · rw [if_pos he]; exact Or.inl rfl
    · rw [if_neg he]
      split
      · exact Or.inr (Or.inl rfl)
      · exact Or.inr (Or.inr ⟨Decidable.not_not.mp he, rfl⟩)
  cases r with
  | apply w m =>
    cases m with
    | error e => rfl
    | ok m =>
      simp only [crashes]
      rcases hgate w with hg | hg | ⟨he, hg⟩ <;> rw [hg] <;> simp only
      rw [readsUnmapped_false (h he)]; simp
  | revertAll w lib =>
    simp only [crashes]
    rcases hgate w with hg | hg | ⟨he, hg⟩ <;> rw [hg] <;> simp only
    rw [loopReads_false _ _ _ (h he)]; simp
  | _ => rfl

/-! ### detours stay -/

theorem applyUnits_marked {w lib id} (us : List UnitM) (s : State) {f i} (h : Marked s f i) :
    Marked (applyUnits tm w lib id us s).1 f i := by
  induction us generalizing s with
  | nil => exact h
  | cons u us ih =>
    simp only [applyUnits]
    split
    · exact h
    split
    · exact h
    · have h2 : Marked (patchAddr tm (addDetour s (w.oldSym (getBasename lib) u.oldName u.oldAddr)
          { univ := s.univ, target := w.newSym u.newName, id := id, active := true })
          (w.oldSym (getBasename lib) u.oldName u.oldAddr) (w.newSym u.newName) true).1 f i :=
        (addDetour_marked h).of_roots (patchAddr_roots _ _ _ _ _)
      split
      · exact h2
      · exact ih _ h2

theorem applyUnits_marks {w lib id} (us : List UnitM) (s : State) (h : (applyUnits tm w lib id us s).2 = 0) :
    ∀ u ∈ us, Marked (applyUnits tm w lib id us s).1 (w.oldSym (getBasename lib) u.oldName u.oldAddr) id := by
  induction us generalizing s with
  | nil => simp
  | cons u us ih =>
    intro x hx
    simp only [applyUnits] at h ⊢
    split at h
    · simp [ENOOLDFUNC] at h
    rename_i h1
    split at h
    · simp [ENONEWFUNC] at h
    rename_i h2
    rw [if_neg h1, if_neg h2]
    split at h
    · rename_i h3; exact absurd h (Nat.pos_iff_ne_zero.mp h3)
    rename_i h3
    rw [if_neg h3]
    rcases List.mem_cons.mp hx with rfl | hx
    · apply applyUnits_marked
      exact (addDetour_marks _ _ _).of_roots (patchAddr_roots _ _ _ _ _)
    · exact ih _ h x hx

theorem applyRefs_roots {w tb ti so} (refs : List RefM) (s : State) : (applyRefs w tb ti so refs s).1.roots = s.roots := by
  induction refs generalizing s with
  | nil => rfl
  | cons r rs ih =>
    simp only [applyRefs]
    generalize (if r.patchOff = 0 then w.newSym r.refName else (so + r.patchOff) % 2 ^ 64) = addr
    by_cases h : r.patchOff = 0 ∧ addr = 0
    · rw [if_pos h]
    · rw [if_neg h, ih]; rfl

theorem applyAllUnits_roots (w : World) (m : Meta) (s : State) :
    (applyAllUnits tm w m s).1.roots = (applyUnits tm w m.lib m.id m.units { s with univ := s.univ + 1 }).1.roots := by
  unfold applyAllUnits
  simp only
  split
  · rfl
  split
  · rfl
  split
  · rfl
  · split
    · rfl
    · exact applyRefs_roots _ _

theorem revertPatch_marked {s : State} {f i} (id) (h : Marked s f i) : Marked (revertPatch tm s id).1 f i := by
  unfold Marked
  rw [revertPatch_roots]
  obtain ⟨r, hr, hrf, d, hd, hdi⟩ := h
  refine ⟨_, List.mem_map.mpr ⟨r, hr, rfl⟩, hrf, deact id d, List.mem_map.mpr ⟨d, hd, rfl⟩, ?_⟩
  unfold deact; split <;> exact hdi

theorem loadPatch_marked {w m} {s : State} {f i} (h : Marked s f i) : Marked (loadPatch tm w m s).1 f i := by
  unfold loadPatch
  simp only
  generalize (if m.type = 2 then 0 else sanity w m s) = e
  by_cases h1 : e ≠ 0
  · rw [if_pos h1]; exact h
  rw [if_neg h1]
  by_cases h2 : m.type ≠ 2 ∧ (!w.dlopenOk) = true
  · rw [if_pos h2]; exact h
  rw [if_neg h2]
  by_cases h3 : m.type = 1
  · rw [if_pos h3]
    cases hu : stateUpdate w m s with
    | none => exact h
    | some s0 =>
      simp only
      have h0 : Marked s0 f i := by
        refine h.of_roots ?_
        unfold stateUpdate at hu
        cases hr : resolveUnits w m.lib m.units with
        | none => simp [hr] at hu
        | some us => simp [hr] at hu; rw [← hu]
      have h4 : Marked (applyAllUnits tm w m s0).1 f i := by
        unfold Marked
        rw [applyAllUnits_roots]
        exact applyUnits_marked _ _ (h0.of_roots rfl)
      split
      · exact h4.of_roots rfl
      · exact h4
  rw [if_neg h3]
  by_cases h4 : m.type = 2
  · rw [if_pos h4]
    split
    · exact h
    · exact revertPatch_marked _ h
  rw [if_neg h4]
  split <;> exact h

theorem loadPatch_marks {w m} {s : State} (ht : m.type = 1) (h : (loadPatch tm w m s).2 = 0) :
    ∀ u ∈ m.units, Marked (loadPatch tm w m s).1 (w.oldSym (getBasename m.lib) u.oldName u.oldAddr) m.id := by
  intro u hu
  unfold loadPatch at h ⊢
  simp only [ht] at h ⊢
  rw [if_neg (show ¬ (1 : Nat) = 2 by decide)] at h ⊢
  by_cases h1 : sanity w m s ≠ 0
  · rw [if_pos h1] at h; exact absurd h h1
  rw [if_neg h1] at h ⊢
  by_cases h2 : (1 : Nat) ≠ 2 ∧ (!w.dlopenOk) = true
  · rw [if_pos h2] at h; simp [EDLOPEN] at h
  rw [if_neg h2, if_pos trivial] at h ⊢
  cases hs : stateUpdate w m s with
  | none => rw [hs] at h; simp [ESTATE] at h
  | some s0 =>
    rw [hs] at h
    simp only at h ⊢
    by_cases h3 : (applyAllUnits tm w m s0).2 ≠ 0
    · rw [if_pos h3] at h; exact absurd h h3
    rw [if_neg h3]
    have h3 : (applyAllUnits tm w m s0).2 = 0 := Decidable.not_not.mp h3
    unfold Marked
    simp only [applyAllUnits_roots]
    refine applyUnits_marks _ _ ?_ u hu
    unfold applyAllUnits at h3
    simp only at h3
    by_cases h4 : (applyUnits tm w m.lib m.id m.units { s0 with univ := s0.univ + 1 }).2 ≠ 0
    · rw [if_pos h4] at h3; exact h3
    · exact Decidable.not_not.mp h4

theorem revertAllLoop_marked {base} (fuel : Nat) (rem : List Applied) (ret : Err) (s : State) {f i s' a}
    (h : Marked s f i) (hr : revertAllLoop tm base fuel rem ret s = some (s', a)) : Marked s' f i := by
  induction fuel generalizing rem ret s with
  | zero =>
    cases rem with
    | nil => simp [revertAllLoop] at hr; rw [← hr.1]; exact h
    | cons p rest => simp [revertAllLoop] at hr
  | succ n ih =>
    cases rem with
    | nil => simp [revertAllLoop] at hr; rw [← hr.1]; exact h
    | cons p rest =>
      simp only [revertAllLoop] at hr
      split at hr
      · split at hr
        · exact ih _ _ _ h hr
        · split at hr
          · simp only [Option.some.injEq, Prod.mk.injEq] at hr
            rw [← hr.1]; exact revertPatch_marked _ h
          · exact ih _ _ _ (revertPatch_marked _ h) hr
      · exact ih _ _ _ h hr

theorem serve_marked {fuel} {s s' : State} {f i r a} (h : Marked s f i) (hs : serve tm fuel s r = some (s', a)) :
    Marked s' f i := by
  cases r with
  | apply w m =>
    simp only [serve, Option.some.injEq, Prod.mk.injEq] at hs
    rw [← hs.1]
    refine Marked.of_roots ?_ (settle_roots _)
    unfold applyPatch
    have hg := gate_roots w s
    rcases hgate : gate w s with ⟨s1, o⟩
    rw [hgate] at hg
    have h1 : Marked s1 f i := h.of_roots hg
    cases o with
    | some e => exact h1
    | none =>
      cases m with
      | error e => exact h1
      | ok m => exact loadPatch_marked h1
  | revertAll w lib =>
    simp only [serve] at hs
    cases hr : revertAll tm fuel w lib s with
    | none => simp [hr] at hs
    | some p =>
      simp only [hr, Option.map_some, Option.some.injEq, Prod.mk.injEq] at hs
      rw [← hs.1]
      refine Marked.of_roots ?_ (settle_roots _)
      unfold revertAll at hr
      have hg := gate_roots w s
      rcases hgate : gate w s with ⟨s1, o⟩
      rw [hgate] at hg hr
      have h1 : Marked s1 f i := h.of_roots hg
      cases o with
      | some e => simp only [Option.some.injEq] at hr; rw [← hr]; exact h1
      | none =>
        simp only at hr
        split at hr
        · simp only [Option.some.injEq] at hr; rw [← hr]; exact h1
        · cases hl : revertAllLoop tm (getBasename lib) fuel s1.patches ENOTARGETLIB s1 with
          | none => simp [hl] at hr
          | some q =>
            have h2 := revertAllLoop_marked _ _ _ _ h1 hl
            simp only [hl, Option.map_some, Option.some.injEq] at hr
            rw [← hr]
            split <;> exact h2
  | check id =>
    simp only [serve, Option.some.injEq, Prod.mk.injEq] at hs
    rw [← hs.1]; exact h
  | toggle =>
    simp only [serve, Option.some.injEq] at hs
    have : s' = (toggle s).1 := by rw [hs]
    rw [this]
    refine h.of_roots ?_
    unfold toggle
    simp only
    split
    · rfl
    · split <;> rfl

theorem run_marked {fuel} (es : List Event) {p p' : Proc} {as f i} (h : Marked p.s f i)
    (hr : run tm fuel p es = .alive p' as) : Marked p'.s f i := by
  induction es generalizing p p' as with
  | nil => simp only [run, Out.alive.injEq] at hr; rw [← hr.1]; exact h
  | cons e es ih =>
    simp only [run] at hr
    cases hs : step tm fuel p e with
    | alive p1 as1 =>
      rw [hs] at hr
      simp only at hr
      cases hr2 : run tm fuel p1 es with
      | alive p2 as2 =>
        rw [hr2] at hr
        simp only [Out.alive.injEq] at hr
        rw [← hr.1]
        refine ih ?_ hr2
        cases e with
        | request r =>
          simp only [step] at hs
          split at hs
          · simp at hs
          · cases hv : serve tm fuel p.s r with
            | none => simp [hv] at hs
            | some q =>
              obtain ⟨s1, a⟩ := q
              simp only [hv, Out.alive.injEq] at hs
              rw [← hs.1]
              exact serve_marked h hv
        | unmap lo hi => simp only [step, Out.alive.injEq] at hs; rw [← hs.1]; exact h
        | load lo bs => simp only [step, Out.alive.injEq] at hs; rw [← hs.1]; exact h.of_roots rfl
      | crashed => rw [hr2] at hr; simp at hr
      | stuck => rw [hr2] at hr; simp at hr
    | crashed => rw [hs] at hr; simp at hr
    | stuck => rw [hs] at hr; simp at hr

end Verif.Power.Gone
