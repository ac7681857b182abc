import Verif.PowerUnload.Lemmas
import Verif.Unload.Props
import Verif.Power.Props

/-! Properties C226 and C227: programs on POWER that unload and load libraries. -/

namespace Verif.Power.Gone

open Verif.Runtime hiding Good Inv area loadPatch_apply_ok
open Verif.Runtime.Spec (Patch track trackAll replacement healthy Idle patchOf libKey refAddr refSize)
open Power.Spec (callDest entryOff body inStub inPad Image Fits)
open Verif.InsnQueue (Req Holds touches Queue)
open Verif.InsnQueue.Spec (perform)
open Verif.Unload (Proc Event Out readsUnmapped Marked stackOf_mem readsUnmapped_false addDetour_marked addDetour_marks Marked.of_roots gate_roots
  settle_roots canRevert_of_shown store_load_eq store_same allMapped moved)
open Verif.Unload.Spec (requests IsRevert)
open Verif.Power.Gone.Spec

variable {tm : List UInt8}

/-! ### helpers -/

theorem serve_revert {fuel} {s : State} {w : World} {m : Meta} {id} (hi : Idle s) (he : s.err = ENONE) (hr : IsRevert id w m)
    (hc : canRevert s id = 0) :
    serve tm fuel s (.apply w (.ok m)) = some (settle (revertPatch tm s id).1, (revertPatch tm s id).2) := by
  obtain ⟨ht, rfl, hb⟩ := hr
  simp only [serve]
  unfold applyPatch
  rw [gate_clean hi]
  simp only [he, hb, ne_eq, not_true_eq_false, if_false, Bool.false_eq_true]
  have : loadPatch tm w m s = revertPatch tm s m.id := by
    unfold loadPatch
    simp [ht, hc]
  rw [this]

theorem revertPatch_answer {s : State} {id} (hc : canRevert s id = 0) : (revertPatch tm s id).2 = 0 := by
  obtain ⟨⟨p, hp, hpid⟩, _⟩ := canRevert_zero hc
  have := (revertRoots_fields tm id s.roots { s with univ := s.univ + 1 }).1
  unfold revertPatch stateRemove
  simp only
  rw [this, if_pos]
  rw [List.any_eq_true]
  exact ⟨p, hp, by simpa using hpid⟩

theorem revertPatch_mem_q (s : State) (id) :
    (revertPatch tm s id).1.q = (revertRoots tm id s.roots { s with univ := s.univ + 1 }).1.q ∧
    (revertPatch tm s id).1.mem = (revertRoots tm id s.roots { s with univ := s.univ + 1 }).1.mem ∧
    (revertPatch tm s id).1.err = (revertRoots tm id s.roots { s with univ := s.univ + 1 }).1.err := ⟨rfl, rfl, rfl⟩

/-- A function replaced by a patch that is applied has a detour of it. -/
theorem marked_of_book {m₀ : Mem} {F s vm ps} (hg : Good tm m₀ F s vm ps) {p : Patch} (hp : p ∈ ps) {f} (hf : f ∈ p.repl.map (·.1)) :
    ∃ r ∈ s.roots, r.addr = f ∧ ∃ d ∈ r.detours, d.id = p.id := by
  rw [← hg.shown] at hp
  obtain ⟨q, hq, rfl⟩ := List.mem_map.mp hp
  obtain ⟨u, hu, rfl⟩ := List.mem_map.mp hf
  have h1 : (q.id, u.2) ∈ stack s.patches u.1 := by
    unfold stack
    rw [List.mem_flatMap]
    refine ⟨q, hq, ?_⟩
    rw [List.mem_reverse, List.mem_map]
    exact ⟨u, by rw [List.mem_filter]; exact ⟨hu, by simp⟩, rfl⟩
  rw [← hg.stacks u.1] at h1
  obtain ⟨d, hd, he⟩ := List.mem_map.mp h1
  obtain ⟨r, hr, hrf, hdr⟩ := stackOf_mem (List.mem_filter.mp hd).1
  exact ⟨r, hr, hrf, d, hdr, (Prod.mk.inj he).1⟩

/-! ### the invariant along events that leave the functions alone -/

theorem harmless_congr {m₀ m' : Mem} {F slot} (hI : Image m₀ F slot)
    (h : ∀ f, F f → ∀ i, inPad m₀ f i → m' i = m₀ i) {e} (hh : Harmless m₀ F slot e) : Harmless m' F slot e := by
  have hu : ∀ i, used m' F slot i ↔ used m₀ F slot i := fun i => used_congr hI h i
  cases e with
  | request r => exact hh
  | unmap lo hi => intro i h1 h2 hc; exact hh i h1 h2 ((hu i).mp hc)
  | load lo bs => intro i h1 h2 hc; exact hh i h1 h2 ((hu i).mp hc)

theorem run_inv {fuel} {F slot : Nat → Prop} (htl : tm.length = 44) (es : List Event) {m₀ : Mem} (hI : Image m₀ F slot) {p : Proc} {ps}
    (hinv : Inv tm m₀ F slot p.s ps) (hmap : ∀ f, F f → p.mapped f = true) (hh : ∀ e ∈ es, Harmless m₀ F slot e) :
    run tm fuel p es ≠ .crashed ∧ ∀ p' as, run tm fuel p es = .alive p' as →
      ∃ m₁, Image m₁ F slot ∧ (∀ f, F f → entryOff m₁ f = entryOff m₀ f) ∧
        Inv tm m₁ F slot p'.s (trackAll ps (requests es) as) := by
  induction es generalizing p ps m₀ with
  | nil =>
    refine ⟨by simp [run], ?_⟩
    intro p' as h
    simp only [run, Out.alive.injEq] at h
    obtain ⟨rfl, rfl⟩ := h
    exact ⟨m₀, hI, fun _ _ => rfl, hinv⟩
  | cons e es ih =>
    have key : ∀ p1 as1 m₁ ps1, step tm fuel p e = .alive p1 as1 → Image m₁ F slot → (∀ f, F f → ∀ i, inPad m₀ f i → m₁ i = m₀ i) →
        Inv tm m₁ F slot p1.s ps1 → (∀ f, F f → p1.mapped f = true) →
        (∀ as, trackAll ps1 (requests es) as = trackAll ps (requests (e :: es)) (as1 ++ as)) →
        run tm fuel p (e :: es) ≠ .crashed ∧ ∀ p' as, run tm fuel p (e :: es) = .alive p' as →
          ∃ m₁, Image m₁ F slot ∧ (∀ f, F f → entryOff m₁ f = entryOff m₀ f) ∧
          Inv tm m₁ F slot p'.s (trackAll ps (requests (e :: es)) as) := by
      intro p1 as1 m₁ ps1 hs hI1 hpad hinv1 hmap1 htr
      obtain ⟨i1, i2⟩ := ih hI1 hinv1 hmap1 (fun x hx => harmless_congr hI hpad (hh x (by simp [hx])))
      simp only [run, hs]
      cases hr : run tm fuel p1 es with
      | alive p2 as2 =>
        refine ⟨by simp, ?_⟩
        intro p' as h
        simp only [Out.alive.injEq] at h
        obtain ⟨rfl, rfl⟩ := h
        obtain ⟨m₂, j1, j2, j3⟩ := i2 p2 as2 hr
        refine ⟨m₂, j1, ?_, ?_⟩
        · intro f hf
          rw [j2 f hf, image_off (hI.range _ hf).1 (hpad f hf)]
        · rw [← htr]; exact j3
      | crashed => exact absurd hr i1
      | stuck => exact ⟨by simp, by simp⟩
    cases e with
    | request r =>
      have hfit : Fits F slot r := hh (.request r) (by simp)
      have hcr : crashes tm fuel p r = false := crashes_false hinv.clean (fun he x hx => hmap _ ((hinv.good (Or.inl he)).inF x hx)) r
      cases hs : serve tm fuel p.s r with
      | none =>
        have : run tm fuel p (.request r :: es) = .stuck := by simp [run, step, hcr, hs]
        rw [this]; exact ⟨by simp, by simp⟩
      | some q =>
        obtain ⟨s1, a⟩ := q
        refine key { p with s := s1 } [a] m₀ (track ps r a) (by simp [step, hcr, hs]) hI (fun _ _ _ _ => rfl)
          (serve_inv htl hI hfit hinv hs) hmap ?_
        intro as; simp [requests, trackAll]
    | unmap lo hi =>
      refine key _ [] m₀ ps rfl hI (fun _ _ _ _ => rfl) hinv ?_ (fun as => by simp [requests])
      intro f hf
      have h1 : ¬ (lo ≤ f ∧ f < hi) := by
        rintro ⟨h1, h2⟩
        refine hh (.unmap lo hi) (by simp) f h1 h2 (Or.inl ⟨f, hf, ?_⟩)
        have := (hI.range f hf).1; unfold inPad body; omega
      simp only [hmap f hf, Bool.true_and, Bool.not_eq_true', Bool.and_eq_false_iff, decide_eq_false_iff_not]
      omega
    | load lo bs =>
      have hnot : ∀ i, used m₀ F slot i → ¬ (lo ≤ i ∧ i < lo + bs.length) :=
        fun i hi hc => hh (.load lo bs) (by simp) i hc.1 hc.2 hi
      have h0 : ∀ i, used m₀ F slot i → m₀.store lo bs i = m₀ i := fun i hi => store_load_eq _ _ _ _ (hnot i hi)
      have hpad : ∀ f, F f → ∀ i, inPad m₀ f i → m₀.store lo bs i = m₀ i := fun f hf i hi => h0 i (Or.inl ⟨f, hf, hi⟩)
      refine key _ [] (m₀.store lo bs) ps rfl (image_congr hI hpad) hpad
        (inv_program hI hinv _ h0 (fun i hi => store_load_eq _ _ _ _ (hnot i hi)) ?_) ?_ (fun as => by simp [requests])
      · intro i hi
        by_cases hin : lo ≤ i ∧ i < lo + bs.length
        · exact store_same hin.1 hin.2
        · rw [store_load_eq _ _ _ _ hin, store_load_eq _ _ _ _ hin]
          exact hinv.frame i hi
      · intro f hf
        simp [hmap f hf]

/-! ### the process of the examples -/

/-- Patch `[1]` applied to the function at 0x1000. -/
def one : List Request := [.apply demoWorld (.ok (demoPatch 1 libA [0x1000] [] []))]

theorem one_fit : ∀ r ∈ one, Fits demoF demoSlot r := by
  intro r hr
  simp only [one, List.mem_singleton] at hr
  subst hr
  exact demo_fits _ _ _ _ _ (by simp [demoF]) (by simp)

theorem one_run : ∃ s, serveAll demoT 10 (State.init demoMem) one = some (s, [0]) ∧ s.err = ENONE :=
  run_of_eval (by decide +kernel)

theorem one_book : trackAll [] one [0] = [patchOf demoWorld (demoPatch 1 libA [0x1000] [] [])] := rfl

/-! ### C226 -/

/-- **C226** (negation) A patch that libpulp reports as applied need not be in force.  After any history without
recorded error, let the program unload a library and load it again, at the same place or elsewhere, or load
another instance of it (`bytes` at `lo`, `f` a function in it with its NOP).  Calls of `f` go to its own,
unpatched body; yet the check still answers that the patch is applied, and applying the patch again is refused
as already applied. -/
theorem C226_reload_unnoticed {m₀ : Mem} {F slot : Nat → Prop} (htl : tm.length = 44) (hI : Image m₀ F slot) (fuel : Nat)
    (reqs : List Request) (hfit : ∀ r ∈ reqs, Fits F slot r) (s : State) (as : List Nat)
    (h : serveAll tm fuel (State.init m₀) reqs = some (s, as)) (he : s.err = ENONE) (mapped : Nat → Bool)
    (w : World) (hb : w.busy = false) (hbi : w.buildIdOk = true) (m : Meta) (ht : m.type = 1)
    (hdeps : ∀ d ∈ m.deps, d ∈ (trackAll [] reqs as).map (fun p => p.id))
    (hin : m.id ∈ (trackAll [] reqs as).map (fun p => p.id))
    (lo₀ hi₀ lo : Nat) (bytes : List UInt8) (f : Nat)
    (hnop : let m' := s.mem.store lo bytes; m'.load (f + entryOff m' f) 4 = [0x00, 0x00, 0x00, 0x60]) :
    ∃ p, run tm fuel ⟨s, mapped⟩ [.unmap lo₀ hi₀, .load lo bytes, .request (.check m.id), .request (.apply w (.ok m))] =
        .alive p [1, EAPPLIED] ∧
      p.s.mem = s.mem.store lo bytes ∧ callDest tm (entryOff p.s.mem f) p.s.mem f = some (body p.s.mem f) := by
  have hi := serveAll_inv htl hI reqs hfit _ _ _ _ (init_inv hI) h
  have hg := hi.good (Or.inl he)
  rw [← hg.shown, List.map_map] at hin hdeps
  generalize hs1 : ({ s with mem := s.mem.store lo bytes } : State) = s1
  have hd : depsOk s1 m.deps = true := by
    unfold depsOk
    rw [List.all_eq_true]
    intro d hd
    obtain ⟨p, hp, hpd⟩ := List.mem_map.mp (hdeps d hd)
    rw [List.any_eq_true]
    exact ⟨p, by rw [← hs1]; exact hp, by simpa [toPatch] using hpd⟩
  have ha : (getApplied s1 m.id).isSome = true := by
    obtain ⟨p, hp, hpd⟩ := List.mem_map.mp hin
    unfold getApplied
    rw [List.find?_isSome]
    exact ⟨p, by rw [← hs1]; exact hp, by simpa [toPatch] using hpd⟩
  have he1 : s1.err = ENONE := by rw [← hs1]; exact he
  have hi1 : Idle s1 := by rw [← hs1]; exact ⟨hi.clean.num, hi.clean.size, hi.clean.ver⟩
  have hl : loadPatch tm w m s1 = (s1, EAPPLIED) := by
    have hsan : sanity w m s1 = EAPPLIED := by unfold sanity; simp [hbi, hd, ha]
    unfold loadPatch
    rw [ht]
    simp only [show ¬ (1 : Nat) = 2 by decide, if_false, hsan]
    rw [if_pos (by decide)]
  have hs2 : serve tm fuel s1 (.apply w (.ok m)) = some (s1, EAPPLIED) := by
    simp only [serve]
    unfold applyPatch
    rw [gate_clean hi1]
    simp only [he1, hb, ne_eq, not_true_eq_false, if_false, Bool.false_eq_true, hl]
    rw [settle_clean hi1]
  have hs3 : serve tm fuel s1 (.check m.id) = some (s1, 1) := by
    simp [serve, checkApplied, he1, ha]
  refine ⟨⟨s1, fun i => (mapped i && !(decide (lo₀ ≤ i) && decide (i < hi₀))) || (decide (lo ≤ i) && decide (i < lo + bytes.length))⟩,
    ?_, by rw [← hs1], ?_⟩
  · have hc : ∀ mp, crashes tm fuel ⟨s1, mp⟩ (.apply w (.ok m)) = false := by
      intro mp
      simp only [crashes]
      split
      · rfl
      · simp [ht]
    have hc2 : ∀ mp, crashes tm fuel ⟨s1, mp⟩ (.check m.id) = false := fun _ => rfl
    simp only [run, step, hs1, hc, hc2, Bool.false_eq_true, if_false, hs3, hs2]
    rfl
  · have hm : s1.mem = s.mem.store lo bytes := by rw [← hs1]
    rw [hm]
    simp only at hnop
    unfold callDest Ppc.Spec.step
    rw [if_pos hnop]
    simp only
    rw [if_pos (by omega)]
    rfl

/-- NOPs everywhere. -/
def nops : List UInt8 := (List.replicate 0x80 [0, 0, 0, 0x60]).flatten

example : ∃ s p, serveAll demoT 10 (State.init demoMem) one = some (s, [0]) ∧
    run demoT 10 ⟨s, allMapped⟩ [.unmap 0xf00 0x1100, .load 0xf00 nops, .request (.check [1]),
      .request (.apply demoWorld (.ok (demoPatch 1 libA [0x1000] [] [])))] = .alive p [1, EAPPLIED] ∧
    callDest demoT 0 p.s.mem 0x1000 = some 0x1004 := by
  obtain ⟨s, h, he⟩ := one_run
  have hl : (s.mem.store 0xf00 nops).load 0x1000 4 = [0, 0, 0, 0x60] := by
    have hn : nops.length = 0x200 := by decide +kernel
    have hm : ∀ k (hk : k < 0x200), s.mem.store 0xf00 nops (0xf00 + k) = nops[k]'(by omega) := fun k hk => store_in (by omega)
    simp only [Mem.load]
    rw [hm 0x100 (by decide), hm 0x101 (by decide), hm 0x102 (by decide), hm 0x103 (by decide)]
    rfl
  have ho : entryOff (s.mem.store 0xf00 nops) 0x1000 = 0 := by unfold entryOff; rw [if_pos hl]
  obtain ⟨p, h1, h2, h3⟩ := C226_reload_unnoticed demo_t demo_image 10 one one_fit s [0] h he allMapped demoWorld rfl rfl
    (demoPatch 1 libA [0x1000] [] []) rfl (by decide +kernel) (by decide +kernel) 0xf00 0x1100 0xf00 nops 0x1000 (by
      simp only [ho]; exact hl)
  rw [h2, ho] at h3
  refine ⟨s, p, h, h1, ?_⟩
  rw [h2, h3]
  unfold body
  rw [ho]

/-- **C226** (what can be done) If the library comes back at the same place with its original contents, then
reverting a patch that replaces every function replaced there is accepted, does not crash, and from then on
everything is again as requests and answers tell: any further history leads to calls going to the replacement
of the newest patch still applied. -/
theorem C226_revert_repairs {m₀ : Mem} {F slot : Nat → Prop} (htl : tm.length = 44) (hI : Image m₀ F slot) (fuel : Nat)
    (reqs : List Request) (hfit : ∀ r ∈ reqs, Fits F slot r) (s : State) (as : List Nat)
    (h : serveAll tm fuel (State.init m₀) reqs = some (s, as)) (he : s.err = ENONE)
    (mapped : Nat → Bool) (hmap : ∀ f, F f → mapped f = true)
    (lo n : Nat) (hwhole : ∀ f, F f → (∀ i, inPad m₀ f i → lo ≤ i ∧ i < lo + n) ∨ (∀ i, inPad m₀ f i → ¬ (lo ≤ i ∧ i < lo + n)))
    (hslot : ∀ i, slot i → ¬ (lo ≤ i ∧ i < lo + n))
    (id : Id) (w : World) (m : Meta) (hr : IsRevert id w m)
    (p : Patch) (hp : p ∈ trackAll [] reqs as) (hpid : p.id = id)
    (hdep : ∀ q ∈ trackAll [] reqs as, id ∉ q.deps)
    (hall : ∀ f, F f → lo ≤ f → f < lo + n → replacement (trackAll [] reqs as) f ≠ none → f ∈ p.repl.map (·.1))
    (more : List Request) (hmore : ∀ r ∈ more, Fits F slot r) :
    let out := run tm fuel ⟨s, mapped⟩
      (.unmap lo (lo + n) :: .load lo (m₀.load lo n) :: .request (.apply w (.ok m)) :: more.map .request)
    out ≠ .crashed ∧ ∀ p' answers, out = .alive p' answers → p'.s.err = ENONE →
      ∃ as', answers = 0 :: as' ∧ ∀ f, F f → callDest tm (entryOff m₀ f) p'.s.mem f =
        some ((replacement (trackAll ((trackAll [] reqs as).filter (fun q => q.id ≠ id)) more as') f).getD (body m₀ f)) := by
  have hinv := serveAll_inv htl hI reqs hfit _ _ _ _ (init_inv hI) h
  have hg := hinv.good (Or.inl he)
  generalize trackAll [] reqs as = ps at *
  generalize hmem : s.mem.store lo (m₀.load lo n) = mem'
  have hin : ∀ i, lo ≤ i ∧ i < lo + n → mem' i = m₀ i := by
    intro i ⟨h1, h2⟩
    obtain ⟨k, rfl⟩ : ∃ k, i = lo + k := ⟨i - lo, by omega⟩
    rw [← hmem, store_in (by rw [load_length]; omega), load_getElem]
  have hout : ∀ i, ¬ (lo ≤ i ∧ i < lo + n) → mem' i = s.mem i := by
    intro i hi
    rw [← hmem]
    exact store_load_eq _ _ _ _ (by rw [load_length]; exact hi)
  generalize hs1 : ({ s with mem := mem' } : State) = s1
  have hg1 : Good tm m₀ F s1 s.mem ps := hg.congr (by rw [← hs1]) (by rw [← hs1]) (by rw [← hs1])
  have hm1 : s1.mem = mem' := by rw [← hs1]
  have he1 : s1.err = ENONE := by rw [← hs1]; exact he
  have hi1 : Idle s1 := by rw [← hs1]; exact ⟨hinv.clean.num, hinv.clean.size, hinv.clean.ver⟩
  -- what is at the entries now
  let X : Nat → Option Nat := fun f => if lo ≤ f ∧ f < lo + n then none else top (stackOf s1.roots f)
  have hpadf : ∀ f, F f → inPad m₀ f f := by
    intro f hf
    have := (hI.range f hf).1
    have := (hI.range f hf).1; unfold inPad body; omega
  have hX : ∀ f, F f → Entry tm mem' (entryOff m₀ f) f (X f) := by
    intro f hf
    by_cases hfr : lo ≤ f ∧ f < lo + n
    · have hsub : ∀ i, inPad m₀ f i → lo ≤ i ∧ i < lo + n := by
        rcases hwhole f hf with hw | hw
        · exact hw
        · exact absurd hfr (hw f (hpadf f hf))
      have h0 := ((init_inv (t := tm) hI).good (Or.inl rfl)).entries f hf
      simp only [X, if_pos hfr]
      refine Entry.congr (hI.range f hf).1 ?_ h0
      intro i hi
      exact (hin i (hsub i ((inPad_iff _ _ _).mpr hi))).symm
    · have hsub : ∀ i, inPad m₀ f i → ¬ (lo ≤ i ∧ i < lo + n) := by
        rcases hwhole f hf with hw | hw
        · exact absurd (hw f (hpadf f hf)) hfr
        · exact hw
      simp only [X, if_neg hfr]
      refine Entry.congr (hI.range f hf).1 ?_ (hg1.entries f hf)
      intro i hi
      exact (hout i (hsub i ((inPad_iff _ _ _).mpr hi))).symm
  have hready : ∀ f, F f → Ppc.getBranchOffset s1.mem f = some (entryOff m₀ f) := by
    intro f hf; rw [hm1]; exact (hX f hf).ready
  have hc : canRevert s1 id = 0 := canRevert_of_shown hg1.shown ⟨p, hp, hpid⟩ hdep
  obtain ⟨r0, _, _, _, g1, u1, p1⟩ := revertPatch_ok htl hI hg1 hready hc
  obtain ⟨ws, w1, w2, w3⟩ := revertRoots_any (id := id) htl (e0 := entryOff m₀) s1.roots { s1 with univ := s1.univ + 1 }
    (fun r hr => hI.range _ (hg1.inF r hr)) (fun r hr => hready _ (hg1.inF r hr)) hg1.nodup
    (fun r hr r' hr' i => image_pads hI _ _ i (hg1.inF r hr) (hg1.inF r' hr'))
  obtain ⟨q1, q2, q3⟩ := revertPatch_mem_q s1 id
  have hem : Emits s1 (revertPatch tm s1 id).1 ws := w1.of_fields rfl rfl rfl q1 q2 q3
  have hws : InSet (area m₀ F slot) ws := by
    refine w2.mono ?_
    rintro i ⟨r, hr, hi⟩
    exact Or.inl ⟨r.addr, hg1.inF r hr, (inStub_iff _ _ _).mpr hi⟩
  have hst : ∀ f, stackOf (revertPatch tm s1 id).1.roots f = (stackOf s1.roots f).map (deact id) := by
    intro f; rw [revertPatch_roots]; exact stackOf_map (fun ds => ds.map (deact id)) s1.roots f rfl
  have hent : ∀ f, F f → Entry tm (perform s1.mem ws) (entryOff m₀ f) f (top (stackOf (revertPatch tm s1 id).1.roots f)) := by
    intro f hf
    rw [hst, hm1]
    by_cases hm : f ∈ s1.roots.map (fun r => r.addr)
    · obtain ⟨r, hr, rfl⟩ := List.mem_map.mp hm
      rw [stackOf_root hg1.nodup hr]
      refine w3 mem' X (fun r' hr' => hX _ (hg1.inF r' hr')) r hr ?_
      by_cases hmark : ∃ d ∈ r.detours, d.id = id
      · exact Or.inl hmark
      · refine Or.inr ?_
        have hmap2 : r.detours.map (deact id) = r.detours := by
          conv => rhs; rw [← List.map_id r.detours]
          apply List.map_congr_left
          intro d hd
          have : d.id ≠ id := fun hc => hmark ⟨d, hd, hc⟩
          simp [deact, this]
        rw [hmap2]
        by_cases hfr : lo ≤ r.addr ∧ r.addr < lo + n
        · simp only [X, if_pos hfr]
          cases hrep : replacement ps r.addr with
          | none =>
            have := hg1.top r.addr
            rw [stackOf_root hg1.nodup hr, hrep] at this
            exact this.symm
          | some g =>
            have hmem := hall r.addr hf hfr.1 hfr.2 (by rw [hrep]; simp)
            obtain ⟨r', hr', hra, d, hd, hdi⟩ := marked_of_book hg1 hp hmem
            have : r' = r := inj_of_nodup_map hg1.nodup hr' hr hra
            subst this
            exact absurd ⟨d, hd, hdi.trans hpid⟩ hmark
        · simp only [X, if_neg hfr]
          rw [stackOf_root hg1.nodup hr]
    · have h0 := stackOf_none hm
      have hXf := hX f hf
      have hXn : X f = none := by
        simp only [X]
        split
        · rfl
        · rw [h0]; rfl
      rw [hXn] at hXf
      rw [h0]
      refine Entry.congr (hI.range f hf).1 ?_ hXf
      intro i hi
      refine (perform_inSet w2 ?_).symm
      rintro ⟨r, hr, hri⟩
      exact hm (List.mem_map.mpr ⟨r, hr, image_pads hI _ _ i (hg1.inF r hr) hf (cell_pad hri) hi⟩)
  have g2 : Good tm m₀ F (revertPatch tm s1 id).1 (perform s1.mem ws) (ps.filter (fun p => p.id ≠ id)) :=
    ⟨g1.shown, g1.ids, g1.libs, g1.deps, g1.nodup, g1.inF, g1.targets, g1.stacks, hent, g1.univs⟩
  have hinv2 : Inv tm m₀ F slot (settle (revertPatch tm s1 id).1) (ps.filter (fun p => p.id ≠ id)) := by
    obtain ⟨ws', hsub, heq, hs⟩ := settle_emits hi1 hem
    refine ⟨?_, g2.book, ?_, ?_⟩
    · rw [hs]; exact ⟨rfl, rfl, by simp only [hem.ver]; exact hi1.ver⟩
    · intro i hi
      rw [hs]
      simp only
      rw [perform_inSet (hws.sublist hsub) hi, hm1]
      by_cases hfr : lo ≤ i ∧ i < lo + n
      · exact hin i hfr
      · rw [hout i hfr]; exact hinv.frame i hi
    · intro hh
      rw [hs] at hh ⊢
      simp only at hh ⊢
      have hne : (revertPatch tm s1 id).1.err ≠ EINSNQ := by
        rcases hh with h | h <;> rw [h] <;> decide
      rw [heq hne]
      exact g2.congr rfl rfl rfl
  have hsv : serve tm fuel s1 (.apply w (.ok m)) = some (settle (revertPatch tm s1 id).1, 0) := by
    rw [serve_revert hi1 he1 hr hc, r0]
  let mp : Nat → Bool := fun i => (mapped i && !(decide (lo ≤ i) && decide (i < lo + n))) || (decide (lo ≤ i) && decide (i < lo + (m₀.load lo n).length))
  have hmp : ∀ f, F f → mp f = true := by
    intro f hf
    simp only [mp, hmap f hf, load_length, Bool.true_and]
    cases decide (lo ≤ f) && decide (f < lo + n) <;> rfl
  have hcr : crashes tm fuel ⟨s1, mp⟩ (.apply w (.ok m)) = false :=
    crashes_false hi1 (fun _ x hx => hmp _ (hg1.inF x hx)) _
  obtain ⟨c1, c2⟩ := run_inv (tm := tm) (fuel := fuel) htl (more.map .request) hI (p := ⟨settle (revertPatch tm s1 id).1, mp⟩) hinv2 hmp (by
    intro e he
    obtain ⟨r, hr, rfl⟩ := List.mem_map.mp he
    exact hmore r hr)
  have hreq : requests (more.map .request) = more := by
    clear hmore c1 c2
    induction more with
    | nil => rfl
    | cons r rs ih => simp [requests, ih]
  have hrun : run tm fuel ⟨s, mapped⟩ (.unmap lo (lo + n) :: .load lo (m₀.load lo n) :: .request (.apply w (.ok m)) :: more.map .request) =
      match run tm fuel ⟨settle (revertPatch tm s1 id).1, mp⟩ (more.map .request) with
      | .alive p' as' => .alive p' (0 :: as')
      | o => o := by
    have e1 : step tm fuel ⟨s1, mp⟩ (.request (.apply w (.ok m))) = .alive ⟨settle (revertPatch tm s1 id).1, mp⟩ [0] := by
      simp only [step, hcr, hsv]
      rfl
    have e2 : run tm fuel ⟨s, mapped⟩ (.unmap lo (lo + n) :: .load lo (m₀.load lo n) :: .request (.apply w (.ok m)) :: more.map .request) =
        (match run tm fuel ⟨s1, mp⟩ (.request (.apply w (.ok m)) :: more.map .request) with
        | .alive p' as' => .alive p' as'
        | o => o) := by
      have f1 : step tm fuel ⟨s, mapped⟩ (.unmap lo (lo + n)) =
        .alive ⟨s, fun i => mapped i && !(decide (lo ≤ i) && decide (i < lo + n))⟩ [] := rfl
      have f2 : step tm fuel ⟨s, fun i => mapped i && !(decide (lo ≤ i) && decide (i < lo + n))⟩ (.load lo (m₀.load lo n)) =
        .alive ⟨s1, mp⟩ [] := by rw [← hs1, ← hmem]; rfl
      rw [run, f1]
      simp only
      rw [run, f2]
      simp only
      cases run tm fuel ⟨s1, mp⟩ (.request (.apply w (.ok m)) :: more.map .request) <;> rfl
    rw [e2]
    simp only [run, e1]
    cases run tm fuel ⟨settle (revertPatch tm s1 id).1, mp⟩ (more.map .request) <;> rfl
  intro out
  have hout2 : out = _ := hrun
  rw [hout2]
  cases hrest : run tm fuel ⟨settle (revertPatch tm s1 id).1, mp⟩ (more.map .request) with
  | alive p2 as2 =>
    refine ⟨by simp, ?_⟩
    intro p' answers h1 h2
    simp only [Out.alive.injEq] at h1
    obtain ⟨rfl, rfl⟩ := h1
    refine ⟨as2, rfl, ?_⟩
    intro f hf
    obtain ⟨m₁, j1, j2, j3⟩ := c2 p2 as2 hrest
    rw [hreq] at j3
    have := (j3.good (Or.inl h2)).calls htl j1.range f hf
    unfold body at this ⊢
    rwa [j2 f hf] at this
  | crashed => exact absurd hrest c1
  | stuck => exact ⟨by simp, by simp⟩

example : ∃ s, serveAll demoT 10 (State.init demoMem) one = some (s, [0]) ∧
    ∀ p answers, run demoT 10 ⟨s, allMapped⟩ (.unmap 0xf00 (0xf00 + 0x200) :: .load 0xf00 (demoMem.load 0xf00 0x200) ::
      .request (.apply demoWorld (.ok (demoRevert 1 libA))) :: one.map .request) = .alive p answers → p.s.err = ENONE →
    ∃ as', answers = 0 :: as' ∧ ∀ f, demoF f → callDest demoT (entryOff demoMem f) p.s.mem f =
      some ((replacement (trackAll [] one as') f).getD (body demoMem f)) := by
  obtain ⟨s, h, he⟩ := one_run
  refine ⟨s, h, ?_⟩
  have := (C226_revert_repairs demo_t demo_image 10 one one_fit s [0] h he allMapped (fun _ _ => rfl) 0xf00 0x200
    (by
      rintro f (rfl | rfl)
      · left; intro i hi; simp only [inPad, body, demo_off.1, demo_off.2] at hi; omega
      · right; intro i hi; simp only [inPad, body, demo_off.1, demo_off.2] at hi; omega)
    (by intro i hi; unfold demoSlot at hi; omega) [1] demoWorld (demoRevert 1 libA) ⟨rfl, rfl, rfl⟩
    (patchOf demoWorld (demoPatch 1 libA [0x1000] [] [])) (by rw [one_book]; simp) rfl
    (by rw [one_book]; decide +kernel)
    (by
      intro f hf h1 h2 _
      rcases hf with rfl | rfl
      · decide +kernel
      · omega) one one_fit).2
  rw [one_book] at this
  simpa [patchOf, demoPatch] using this

/-! ### C227 -/

/-- **C227** (negation) Once a patch has been applied to a function, reverting the patch crashes the program
whenever the function's library has been unloaded by then.  It does not matter what happened in between: in
particular not that the patch had been reverted before the library was unloaded, and applied again to the library
loaded elsewhere. -/
theorem C227_unloaded_crashes (fuel : Nat) (p : Proc) (w : World) (m : Meta) (ht : m.type = 1) (u : UnitM) (hu : u ∈ m.units)
    (es : List Event) (p' : Proc) (as : List Nat)
    (h : run tm fuel p (.request (.apply w (.ok m)) :: es) = .alive p' (0 :: as))
    (hmap : p'.mapped (w.oldSym (getBasename m.lib) u.oldName u.oldAddr) = false)
    (w' : World) (m' : Meta) (hr : IsRevert m.id w' m') (s' : State)
    (hacc : serve tm fuel p'.s (.apply w' (.ok m')) = some (s', 0)) :
    step tm fuel p' (.request (.apply w' (.ok m'))) = .crashed := by
  have hmark : Marked p'.s (w.oldSym (getBasename m.lib) u.oldName u.oldAddr) m.id := by
    simp only [run] at h
    cases hs : step tm fuel p (.request (.apply w (.ok m))) with
    | crashed => rw [hs] at h; simp at h
    | stuck => rw [hs] at h; simp at h
    | alive p1 as1 =>
      rw [hs] at h
      simp only at h
      cases hr2 : run tm fuel p1 es with
      | crashed => rw [hr2] at h; simp at h
      | stuck => rw [hr2] at h; simp at h
      | alive p2 as2 =>
        rw [hr2] at h
        simp only [Out.alive.injEq] at h
        obtain ⟨rfl, h2⟩ := h
        refine run_marked es ?_ hr2
        simp only [step] at hs
        split at hs
        · simp at hs
        simp only [serve, Out.alive.injEq] at hs
        obtain ⟨rfl, rfl⟩ := hs
        simp only [List.cons_append, List.nil_append, List.cons.injEq] at h2
        have h0 : (applyPatch tm w (.ok m) p.s).2 = 0 := h2.1
        refine Marked.of_roots ?_ (settle_roots _)
        unfold applyPatch at h0 ⊢
        rcases hgate : gate w p.s with ⟨s1, o⟩
        rw [hgate] at h0
        cases o with
        | some e =>
          exfalso
          simp only at h0
          unfold gate at hgate
          by_cases he : p.s.err ≠ ENONE
          · rw [if_pos he] at hgate
            simp only [Prod.mk.injEq, Option.some.injEq] at hgate
            exact he (hgate.2.trans h0)
          · rw [if_neg he] at hgate
            simp only at hgate
            by_cases hq : (InsnQueue.ensureEmptiness ⟨p.s.q, p.s.err⟩).2 ≠ 0
            · rw [if_pos hq] at hgate
              simp only [Prod.mk.injEq, Option.some.injEq] at hgate
              have h3 : (InsnQueue.ensureEmptiness ⟨p.s.q, p.s.err⟩).1.err = 0 := hgate.2.trans h0
              unfold InsnQueue.ensureEmptiness at hq h3
              split at hq
              · rename_i hcond
                rw [if_pos hcond] at h3
                simp [EINSNQ] at h3
              · simp at hq
            · rw [if_neg hq] at hgate
              split at hgate
              · simp only [Prod.mk.injEq, Option.some.injEq] at hgate
                rw [← hgate.2] at h0
                simp [EAGAIN] at h0
              · simp at hgate
        | none => exact loadPatch_marks ht h0 u hu
  obtain ⟨ht', hid', hb'⟩ := hr
  simp only [serve, Option.some.injEq, Prod.mk.injEq] at hacc
  have h0 := hacc.2
  unfold applyPatch at h0
  rcases hgate : gate w' p'.s with ⟨s1, o⟩
  have hroots := gate_roots w' p'.s
  rw [hgate] at h0 hroots
  have hcr : crashes tm fuel p' (.apply w' (.ok m')) = true := by
    simp only [crashes, hgate]
    cases o with
    | some e =>
      exfalso
      simp only at h0
      unfold gate at hgate
      by_cases he : p'.s.err ≠ ENONE
      · rw [if_pos he] at hgate
        simp only [Prod.mk.injEq, Option.some.injEq] at hgate
        exact he (hgate.2.trans h0)
      · rw [if_neg he] at hgate
        simp only at hgate
        by_cases hq : (InsnQueue.ensureEmptiness ⟨p'.s.q, p'.s.err⟩).2 ≠ 0
        · rw [if_pos hq] at hgate
          simp only [Prod.mk.injEq, Option.some.injEq] at hgate
          have h3 : (InsnQueue.ensureEmptiness ⟨p'.s.q, p'.s.err⟩).1.err = 0 := hgate.2.trans h0
          unfold InsnQueue.ensureEmptiness at hq h3
          split at hq
          · rename_i hcond
            rw [if_pos hcond] at h3
            simp [EINSNQ] at h3
          · simp at hq
        · rw [if_neg hq] at hgate
          simp [hb'] at hgate
    | none =>
      simp only at h0 ⊢
      have hc : canRevert s1 m'.id = 0 := by
        unfold loadPatch at h0
        simp only [ht', if_true, ne_eq, not_true_eq_false, if_false, false_and,
          show ¬ (2 : Nat) = 1 by decide] at h0
        by_cases hc : canRevert s1 m'.id ≠ 0
        · rw [if_pos hc] at h0; exact absurd h0 hc
        · exact Decidable.not_not.mp hc
      have hru : readsUnmapped p'.mapped s1 m'.id = true := by
        unfold readsUnmapped
        rw [hroots, List.any_eq_true]
        obtain ⟨r, hr, hrf, d, hd, hdi⟩ := hmark
        refine ⟨r, hr, ?_⟩
        rw [hrf, hmap]
        simp only [Bool.not_false, Bool.and_true]
        rw [List.any_eq_true]
        exact ⟨d, hd, by rw [hid']; simpa using hdi⟩
      simp [ht', hc, hru]
  simp [step, hcr]

/-- The library with patched function 0x1000 is gone and found again at 0x2000. -/
def moved : World := { demoWorld with oldSym := fun _ _ a => a + 0x1000 }

/-- Revert before unloading, load elsewhere, apply again: the next revert crashes. -/
def careful : List Event :=
  [.request (.apply demoWorld (.ok (demoRevert 1 libA))), .unmap 0xf00 0x1100,
   .request (.apply moved (.ok (demoPatch 1 libA [0x1000] [] [])))]

example : ∃ p, run demoT 10 ⟨State.init demoMem, allMapped⟩
      (.request (.apply demoWorld (.ok (demoPatch 1 libA [0x1000] [] []))) :: careful) = .alive p [0, 0, 0] ∧
    step demoT 10 p (.request (.apply moved (.ok (demoRevert 1 libA)))) = .crashed := by
  have h1 : (match run demoT 10 ⟨State.init demoMem, allMapped⟩
      (.request (.apply demoWorld (.ok (demoPatch 1 libA [0x1000] [] []))) :: careful) with
      | .alive p as => some (as, p.mapped 0x1000, (serve demoT 10 p.s (.apply moved (.ok (demoRevert 1 libA)))).map (·.2))
      | _ => none) = some ([0, 0, 0], false, some 0) := by decide +kernel
  cases hr : run demoT 10 ⟨State.init demoMem, allMapped⟩
      (.request (.apply demoWorld (.ok (demoPatch 1 libA [0x1000] [] []))) :: careful) with
  | crashed => rw [hr] at h1; simp at h1
  | stuck => rw [hr] at h1; simp at h1
  | alive p as =>
    rw [hr] at h1
    simp only [Option.some.injEq, Prod.mk.injEq] at h1
    obtain ⟨rfl, h2, h3⟩ := h1
    cases hs : serve demoT 10 p.s (.apply moved (.ok (demoRevert 1 libA))) with
    | none => simp [hs] at h3
    | some q =>
      obtain ⟨s', a⟩ := q
      simp only [hs, Option.map_some, Option.some.injEq] at h3
      subst h3
      exact ⟨p, rfl, C227_unloaded_crashes 10 _ demoWorld (demoPatch 1 libA [0x1000] [] []) rfl _ (List.mem_singleton.mpr rfl) careful p
        [0, 0] hr h2 moved (demoRevert 1 libA) ⟨rfl, rfl, rfl⟩ s' hs⟩

/-- What is left active at a function once a patch is reverted is the replacement of the other patches. -/
theorem top_left {m₀ : Mem} {F s vm ps} (hg : Good tm m₀ F s vm ps) {r} (hr : r ∈ s.roots) (id : Id) :
    top (r.detours.map (deact id)) = replacement (ps.filter (fun q => q.id ≠ id)) r.addr := by
  have hst : r.detours = stackOf s.roots r.addr := by rw [stackOf_root hg.nodup hr]
  have : ps.filter (fun q => q.id ≠ id) = (s.patches.filter (fun q => q.id ≠ id)).map toPatch := by
    rw [← hg.shown, List.filter_map]; rfl
  rw [top_filter, hst, deact_filter, hg.stacks r.addr, ← stack_filter, this, replacement_stack]

/-- **C227** (negation) If other code is at the place of the function by then, reverting may overwrite it: with a
branch 52 bytes backwards at that address, the revert is answered with success and the branch has become a NOP. -/
theorem C227_overwrites_other_code {m₀ : Mem} {F slot : Nat → Prop} (htl : tm.length = 44) (hI : Image m₀ F slot) (fuel : Nat)
    (reqs : List Request) (hfit : ∀ r ∈ reqs, Fits F slot r) (s : State) (as : List Nat)
    (h : serveAll tm fuel (State.init m₀) reqs = some (s, as)) (he : s.err = ENONE)
    (id : Id) (w : World) (m : Meta) (hr : IsRevert id w m)
    (p : Patch) (hp : p ∈ trackAll [] reqs as) (hpid : p.id = id) (hdep : ∀ q ∈ trackAll [] reqs as, id ∉ q.deps)
    (f : Nat) (hf : f ∈ p.repl.map (·.1))
    (honly : replacement ((trackAll [] reqs as).filter (fun q => q.id ≠ id)) f = none)
    (hspace : ∀ g, F g → g ≠ f → g + 12 ≤ f - 52 ∨ f + 56 ≤ g)
    (mem' : Mem) (hbranch : mem'.load f 4 = [0xcc, 0xff, 0xff, 0x4b]) :
    ∃ s', serve tm fuel { s with mem := mem' } (.apply w (.ok m)) = some (s', 0) ∧
      (s'.err = ENONE → s'.mem.load f 4 = [0x00, 0x00, 0x00, 0x60]) := by
  have hinv := serveAll_inv htl hI reqs hfit _ _ _ _ (init_inv hI) h
  have hg := hinv.good (Or.inl he)
  generalize trackAll [] reqs as = ps at *
  generalize hs1 : ({ s with mem := mem' } : State) = s1
  have hg1 : Good tm m₀ F s1 s.mem ps := hg.congr (by rw [← hs1]) (by rw [← hs1]) (by rw [← hs1])
  have hm1 : s1.mem = mem' := by rw [← hs1]
  have he1 : s1.err = ENONE := by rw [← hs1]; exact he
  have hi1 : Idle s1 := by rw [← hs1]; exact ⟨hinv.clean.num, hinv.clean.size, hinv.clean.ver⟩
  have hc : canRevert s1 id = 0 := canRevert_of_shown hg1.shown ⟨p, hp, hpid⟩ hdep
  obtain ⟨r, hr2, hrf, d, hd, hdi⟩ := marked_of_book hg1 hp hf
  have hF : F f := by rw [← hrf]; exact hg1.inF r hr2
  obtain ⟨hf1, hf2⟩ := hI.range f hF
  have hready : Ppc.getBranchOffset s1.mem f = some 0 := by
    unfold Ppc.getBranchOffset
    rw [if_pos (Or.inr (by rw [hm1, hbranch]; decide))]
  obtain ⟨w1, ws, w2, s0, s2, e1, e2, e3, e4, e5, e6, e7, e8⟩ := revertRoots_at (id := id) (f := f)
    (A := fun i => i < f - 52 ∨ f + 4 ≤ i) htl s1.roots { s1 with univ := s1.univ + 1 } (fun r hr => hI.range _ (hg1.inF r hr))
    (by
      intro x hx hxf i hi
      have h3 := hspace x.addr (hg1.inF x hx) hxf
      unfold near at hi
      show i < f - 52 ∨ f + 4 ≤ i
      omega) hg1.nodup r hr2 hrf
  obtain ⟨wr, a1, a2, a3, a4⟩ := revertRoot_any (id := id) htl hf1 hf2 [] r.detours s0 (by rw [e4]; exact hready)
  rw [e5] at e8
  have hem : Emits s1 (revertPatch tm s1 id).1 ((w1 ++ wr) ++ w2) :=
    ((e7.trans a1).trans e8).of_fields rfl rfl rfl rfl rfl rfl
  refine ⟨settle (revertPatch tm s1 id).1, by rw [serve_revert hi1 he1 hr hc, revertPatch_answer hc], ?_⟩
  obtain ⟨ws', hsub, heq, hs⟩ := settle_emits hi1 hem
  rw [hs]
  simp only
  intro herr
  rw [heq (by rw [herr]; decide), perform_append, perform_append]
  have hent := a3 (perform s1.mem w1) ⟨Or.inl rfl, by simp⟩ ⟨d, hd, hdi.trans hpid⟩
  have htop : top (r.detours.map (deact id)) = none := by rw [top_left hg1 hr2, hrf]; exact honly
  simp only [List.nil_append, htop] at hent
  have := hent.insn
  simp only [Nat.add_zero, Option.isSome_none, Bool.false_eq_true, if_false, Ppc.nop] at this
  rw [← this]
  refine load_congr fun i h1 h2 => perform_inSet e3 ?_
  show ¬ (i < f - 52 ∨ f + 4 ≤ i)
  omega

/-- Other code at 0x1000: a branch backwards. -/
def otherCode : Mem := fun i => if i = 0x1000 then 0xcc else if i = 0x1001 then 0xff else if i = 0x1002 then 0xff else if i = 0x1003 then 0x4b else 0x55

example : ∃ s s', serveAll demoT 10 (State.init demoMem) one = some (s, [0]) ∧
    serve demoT 10 { s with mem := otherCode } (.apply demoWorld (.ok (demoRevert 1 libA))) = some (s', 0) ∧
    (s'.err = ENONE → s'.mem.load 0x1000 4 = [0x00, 0x00, 0x00, 0x60]) := by
  obtain ⟨s, h, he⟩ := one_run
  obtain ⟨s', h1, h2⟩ := C227_overwrites_other_code demo_t demo_image 10 one one_fit s [0] h he [1] demoWorld (demoRevert 1 libA)
    ⟨rfl, rfl, rfl⟩ (patchOf demoWorld (demoPatch 1 libA [0x1000] [] [])) (by rw [one_book]; simp) rfl
    (by rw [one_book]; decide +kernel) 0x1000 (by decide +kernel) (by rw [one_book]; decide +kernel)
    (by rintro g (rfl | rfl) hg <;> omega) otherCode (by decide +kernel)
  exact ⟨s, s', h, h1, h2⟩

/-- **C227** (negation) On POWER other code is overwritten even where nothing looks like the entry of a livepatchable function:
whatever is in memory by then, if another patch still replaces the function, reverting stores the 52 bytes of the
trampoline to that replacement before the place of the function, and is answered with success. -/
theorem C227_overwrites_before {m₀ : Mem} {F slot : Nat → Prop} (htl : tm.length = 44) (hI : Image m₀ F slot) (fuel : Nat)
    (reqs : List Request) (hfit : ∀ r ∈ reqs, Fits F slot r) (s : State) (as : List Nat)
    (h : serveAll tm fuel (State.init m₀) reqs = some (s, as)) (he : s.err = ENONE)
    (id : Id) (w : World) (m : Meta) (hr : IsRevert id w m)
    (p : Patch) (hp : p ∈ trackAll [] reqs as) (hpid : p.id = id) (hdep : ∀ q ∈ trackAll [] reqs as, id ∉ q.deps)
    (f : Nat) (hf : f ∈ p.repl.map (·.1)) (g : Nat)
    (hleft : replacement ((trackAll [] reqs as).filter (fun q => q.id ≠ id)) f = some g)
    (hspace : ∀ g, F g → g ≠ f → g + 12 ≤ f - 52 ∨ f + 56 ≤ g) (mem' : Mem) :
    ∃ s', serve tm fuel { s with mem := mem' } (.apply w (.ok m)) = some (s', 0) ∧
      (s'.err = ENONE → s'.mem.load (f - 52) 52 = tm ++ le 8 g) := by
  have hinv := serveAll_inv htl hI reqs hfit _ _ _ _ (init_inv hI) h
  have hg := hinv.good (Or.inl he)
  generalize trackAll [] reqs as = ps at *
  generalize hs1 : ({ s with mem := mem' } : State) = s1
  have hg1 : Good tm m₀ F s1 s.mem ps := hg.congr (by rw [← hs1]) (by rw [← hs1]) (by rw [← hs1])
  have hm1 : s1.mem = mem' := by rw [← hs1]
  have he1 : s1.err = ENONE := by rw [← hs1]; exact he
  have hi1 : Idle s1 := by rw [← hs1]; exact ⟨hinv.clean.num, hinv.clean.size, hinv.clean.ver⟩
  have hc : canRevert s1 id = 0 := canRevert_of_shown hg1.shown ⟨p, hp, hpid⟩ hdep
  obtain ⟨r, hr2, hrf, d, hd, hdi⟩ := marked_of_book hg1 hp hf
  have hF : F f := by rw [← hrf]; exact hg1.inF r hr2
  obtain ⟨hf1, hf2⟩ := hI.range f hF
  obtain ⟨w1, ws, w2, s0, s2, e1, e2, e3, e4, e5, e6, e7, e8⟩ := revertRoots_at (id := id) (f := f)
    (A := fun i => i < f - 52 ∨ f ≤ i) htl s1.roots { s1 with univ := s1.univ + 1 } (fun r hr => hI.range _ (hg1.inF r hr))
    (by
      intro x hx hxf i hi
      have h3 := hspace x.addr (hg1.inF x hx) hxf
      unfold near at hi
      show i < f - 52 ∨ f ≤ i
      omega) hg1.nodup r hr2 hrf
  obtain ⟨wr, a1, a2, a3, a4⟩ := revertRoot_near (id := id) htl hf1 hf2 [] r.detours s0
  rw [e5] at e8
  have hem : Emits s1 (revertPatch tm s1 id).1 ((w1 ++ wr) ++ w2) :=
    ((e7.trans a1).trans e8).of_fields rfl rfl rfl rfl rfl rfl
  refine ⟨settle (revertPatch tm s1 id).1, by rw [serve_revert hi1 he1 hr hc, revertPatch_answer hc], ?_⟩
  obtain ⟨ws', hsub, heq, hs⟩ := settle_emits hi1 hem
  rw [hs]
  simp only
  intro herr
  rw [heq (by rw [herr]; decide), perform_append, perform_append]
  rw [← a3 (perform s1.mem w1) g ⟨d, hd, hdi.trans hpid⟩ (by rw [List.nil_append, top_left hg1 hr2, hrf]; exact hleft)]
  refine load_congr fun i h1 h2 => perform_inSet e3 ?_
  show ¬ (i < f - 52 ∨ f ≤ i)
  omega

/-- Patches `[1]` and `[2]` applied to the function at 0x1000. -/
def two : List Request := one ++ [.apply demoWorld (.ok (demoPatch 2 libA [0x1000] [] []))]

theorem two_fit : ∀ r ∈ two, Fits demoF demoSlot r := by
  intro r hr
  simp only [two, one, List.mem_append, List.mem_singleton] at hr
  rcases hr with rfl | rfl <;> exact demo_fits _ _ _ _ _ (by simp [demoF]) (by simp)

theorem two_run : ∃ s, serveAll demoT 10 (State.init demoMem) two = some (s, [0, 0]) ∧ s.err = ENONE :=
  run_of_eval (by decide +kernel)

example : ∃ s s', serveAll demoT 10 (State.init demoMem) two = some (s, [0, 0]) ∧
    serve demoT 10 { s with mem := fun _ => 0x55 } (.apply demoWorld (.ok (demoRevert 2 libA))) = some (s', 0) ∧
    (s'.err = ENONE → s'.mem.load (0x1000 - 52) 52 = demoT ++ le 8 0x700001) := by
  obtain ⟨s, h, he⟩ := two_run
  obtain ⟨s', h1, h2⟩ := C227_overwrites_before demo_t demo_image 10 two two_fit s [0, 0] h he [2] demoWorld (demoRevert 2 libA)
    ⟨rfl, rfl, rfl⟩ (patchOf demoWorld (demoPatch 2 libA [0x1000] [] [])) (by decide +kernel) rfl
    (by decide +kernel) 0x1000 (by decide +kernel) 0x700001 (by decide +kernel)
    (by rintro g (rfl | rfl) hg <;> omega) (fun _ => 0x55)
  exact ⟨s, s', h, h1, h2⟩

example : ((serveAll demoT 10 (State.init demoMem) two).bind fun p =>
    (serve demoT 10 { p.1 with mem := fun _ => 0x55 } (.apply demoWorld (.ok (demoRevert 2 libA)))).map fun q =>
      (p.2, q.2, q.1.err, decide (q.1.mem.load (0x1000 - 52) 52 = demoT ++ le 8 0x700001))) = some ([0, 0], 0, ENONE, true) := by
  decide +kernel

/-- **C227** If what is at the places of the functions by then does not look like the entry of a livepatchable
function, reverting leaves the memory alone but for the 52 bytes before each of these places, and is answered with success. -/
theorem C227_other_code_kept {m₀ : Mem} {F slot : Nat → Prop} (htl : tm.length = 44) (hI : Image m₀ F slot) (fuel : Nat)
    (reqs : List Request) (hfit : ∀ r ∈ reqs, Fits F slot r) (s : State) (as : List Nat)
    (h : serveAll tm fuel (State.init m₀) reqs = some (s, as)) (he : s.err = ENONE)
    (id : Id) (w : World) (m : Meta) (hr : IsRevert id w m)
    (hin : ∃ p ∈ trackAll [] reqs as, p.id = id) (hdep : ∀ q ∈ trackAll [] reqs as, id ∉ q.deps)
    (mem' : Mem) (hother : ∀ f, F f →
      mem'.load f 4 ≠ [0x00, 0x00, 0x00, 0x60] ∧ mem'.load f 4 ≠ [0xcc, 0xff, 0xff, 0x4b] ∧
      mem'.load (f + 8) 4 ≠ [0x00, 0x00, 0x00, 0x60] ∧ mem'.load (f + 8) 4 ≠ [0xc4, 0xff, 0xff, 0x4b]) :
    ∃ s', serve tm fuel { s with mem := mem' } (.apply w (.ok m)) = some (s', 0) ∧
      ∀ i, (∀ f, F f → ¬ (f - 52 ≤ i ∧ i < f)) → s'.mem i = mem' i := by
  have hinv := serveAll_inv htl hI reqs hfit _ _ _ _ (init_inv hI) h
  have hg := hinv.good (Or.inl he)
  generalize trackAll [] reqs as = ps at *
  generalize hs1 : ({ s with mem := mem' } : State) = s1
  have hg1 : Good tm m₀ F s1 s.mem ps := hg.congr (by rw [← hs1]) (by rw [← hs1]) (by rw [← hs1])
  have hm1 : s1.mem = mem' := by rw [← hs1]
  have he1 : s1.err = ENONE := by rw [← hs1]; exact he
  have hi1 : Idle s1 := by rw [← hs1]; exact ⟨hinv.clean.num, hinv.clean.size, hinv.clean.ver⟩
  have hc : canRevert s1 id = 0 := canRevert_of_shown hg1.shown hin hdep
  obtain ⟨ws, a1, a2⟩ := revertRoots_lost (id := id) htl s1.roots { s1 with univ := s1.univ + 1 }
    (fun r hr => hI.range _ (hg1.inF r hr)) (by
      intro r hr
      obtain ⟨h1, h2, h3, h4⟩ := hother r.addr (hg1.inF r hr)
      have b0 : Ppc.branchBytes 0 = [0xcc, 0xff, 0xff, 0x4b] := by decide
      have b8 : Ppc.branchBytes 8 = [0xc4, 0xff, 0xff, 0x4b] := by decide
      simp only [hm1, Ppc.getBranchOffset, b0, b8, Ppc.nop, h1, h2, h3, h4, or_self, if_false])
  have hem : Emits s1 (revertPatch tm s1 id).1 ws := a1.of_fields rfl rfl rfl rfl rfl rfl
  refine ⟨settle (revertPatch tm s1 id).1, by rw [serve_revert hi1 he1 hr hc, revertPatch_answer hc], ?_⟩
  obtain ⟨ws', hsub, heq, hs⟩ := settle_emits hi1 hem
  rw [hs]
  intro i hi
  simp only
  rw [perform_inSet (a2.sublist hsub), hm1]
  rintro ⟨r, hr, hri⟩
  exact hi r.addr (hg1.inF r hr) hri

example : ∃ s s', serveAll demoT 10 (State.init demoMem) one = some (s, [0]) ∧
    serve demoT 10 { s with mem := fun _ => 0x55 } (.apply demoWorld (.ok (demoRevert 1 libA))) = some (s', 0) ∧
    s'.mem 0x1000 = 0x55 := by
  obtain ⟨s, h, he⟩ := one_run
  obtain ⟨s', h1, h2⟩ := C227_other_code_kept demo_t demo_image 10 one one_fit s [0] h he [1] demoWorld (demoRevert 1 libA)
    ⟨rfl, rfl, rfl⟩ (by rw [one_book]; exact ⟨_, List.mem_singleton.mpr rfl, rfl⟩) (by rw [one_book]; decide +kernel) (fun _ => 0x55)
    (fun _ _ => by simp [Mem.load])
  exact ⟨s, s', h, h1, h2 0x1000 (by rintro f (rfl | rfl) <;> omega)⟩

/-- **C227** (partial) As long as the program leaves the pads of its livepatchable functions and the slots mapped and
alone, it may load and unload what it likes: no request crashes it, and while no internal error is recorded calls go
where requests and answers tell.  Missing: any handling of libraries with livepatched functions being unloaded,
see the other theorems. -/
theorem C227_safe_partial {m₀ : Mem} {F slot : Nat → Prop} (htl : tm.length = 44) (hI : Image m₀ F slot) (fuel : Nat) (mapped : Nat → Bool)
    (hmap : ∀ f, F f → mapped f = true) (es : List Event) (hh : ∀ e ∈ es, Harmless m₀ F slot e) :
    run tm fuel ⟨State.init m₀, mapped⟩ es ≠ .crashed ∧
    ∀ p as, run tm fuel ⟨State.init m₀, mapped⟩ es = .alive p as → p.s.err = ENONE → ∀ f, F f →
      callDest tm (entryOff m₀ f) p.s.mem f = some ((replacement (trackAll [] (requests es) as) f).getD (body m₀ f)) := by
  obtain ⟨h1, h2⟩ := run_inv (tm := tm) (fuel := fuel) htl es hI (p := ⟨State.init m₀, mapped⟩) (init_inv hI) hmap hh
  refine ⟨h1, ?_⟩
  intro p as h he f hf
  obtain ⟨m₁, j1, j2, j3⟩ := h2 p as h
  have := (j3.good (Or.inl he)).calls htl j1.range f hf
  unfold body at this ⊢
  rwa [j2 f hf] at this

/-- Another library is loaded and unloaded around the patch. -/
def benign : List Event :=
  [.load 0x8000 [1, 2, 3], .request (.apply demoWorld (.ok (demoPatch 1 libA [0x1000] [] []))), .unmap 0x8000 0x9000]

theorem benign_harmless : ∀ e ∈ benign, Harmless demoMem demoF demoSlot e := by
  have hu : ∀ i, 0x8000 ≤ i → ¬ used demoMem demoF demoSlot i := by
    rintro i hi (⟨f, hf, h⟩ | h)
    · rcases hf with rfl | rfl <;> simp only [inPad, body, demo_off.1, demo_off.2] at h <;> omega
    · unfold demoSlot at h; omega
  intro e he
  simp only [benign, List.mem_cons, List.not_mem_nil, or_false] at he
  rcases he with rfl | rfl | rfl
  · exact fun i h _ => hu i h
  · exact one_fit _ (List.mem_singleton.mpr rfl)
  · exact fun i h _ => hu i h

example : ∃ p, run demoT 10 ⟨State.init demoMem, allMapped⟩ benign = .alive p [0] ∧ callDest demoT 0 p.s.mem 0x1000 = some 0x700001 := by
  have h1 : (match run demoT 10 ⟨State.init demoMem, allMapped⟩ benign with
      | .alive p as => some (as, p.s.err)
      | _ => none) = some ([0], ENONE) := by decide +kernel
  cases hr : run demoT 10 ⟨State.init demoMem, allMapped⟩ benign with
  | crashed => rw [hr] at h1; simp at h1
  | stuck => rw [hr] at h1; simp at h1
  | alive p as =>
    rw [hr] at h1
    simp only [Option.some.injEq, Prod.mk.injEq] at h1
    obtain ⟨rfl, h2⟩ := h1
    refine ⟨p, rfl, ?_⟩
    have := (C227_safe_partial demo_t demo_image 10 allMapped (fun _ _ => rfl) benign benign_harmless).2 p [0] hr h2 0x1000 (Or.inl rfl)
    rw [demo_off.1] at this
    rw [this]
    decide +kernel

end Verif.Power.Gone
