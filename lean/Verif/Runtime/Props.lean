import Verif.Runtime.Invariant

/-! Properties C18 to C25, C28 to C30 and C50: applying and reverting livepatches in a process. -/

namespace Verif.Runtime

open Spec
open Verif.X86.Spec (callDest body)

/-! ### a process for the examples

Memory full of nops, two livepatchable functions at 0x1000 and 0x2000 and one slot for references. -/

def demoMem : Mem := fun _ => 0x90
def demoF (f : Nat) : Prop := f = 0x1000 ∨ f = 0x2000
def demoSlot (i : Nat) : Prop := 0x5000 ≤ i ∧ i < 0x5010

/-- Functions are found at the address recorded for them, the replacement called `[n]` is at
0x700000 + n. -/
def demoWorld : World where
  busy := false
  buildIdOk := true
  dlopenOk := true
  oldSym := fun _ _ a => a
  newSym := fun n => match n with | [] => 0 | c :: _ => 0x700000 + c.toNat
  libBase := fun _ => 0x400000
  tlsIdx := fun _ => 3
  soBase := some 0x5000

/-- A patch called `[n]` for library `lib`, replacing the functions `fs` by `[n]`. -/
def demoPatch (n : UInt8) (lib : Str) (fs : List Nat) (deps : List Id) (refs : List RefM) : Meta :=
  { type := 1, id := [n], soName := [n], lib := lib,
    units := fs.map fun f => { oldName := [], newName := [n], oldAddr := f }, deps := deps, refs := refs }

def demoRevert (n : UInt8) (lib : Str) : Meta :=
  { type := 2, id := [n], soName := [n], lib := lib, units := [], deps := [], refs := [] }

theorem demo_body (f : Nat) : body demoMem f = f + 2 := by
  simp [body, X86.Spec.startsEndbr, Mem.load, demoMem]

theorem demo_image : Image demoMem demoF demoSlot := by
  refine ⟨?_, ?_, ?_, ?_⟩
  · rintro f (rfl | rfl) <;> decide
  · intro f hf
    rw [demo_body]
    exact Or.inl (by simp [Mem.load, demoMem])
  · intro f g i hf hg h1 h2
    simp only [inPad, demo_body] at h1 h2
    rcases hf with rfl | rfl <;> rcases hg with rfl | rfl <;> omega
  · intro f i hf h1 h2
    simp only [inPad, demo_body] at h1
    unfold demoSlot at h2
    rcases hf with rfl | rfl <;> omega

theorem demo_fits (n lib fs deps refs) (hfs : ∀ f ∈ fs, demoF f)
    (hrefs : ∀ r ∈ refs, refAddr demoWorld 0x5000 r < 2 ^ 64 ∧
      ∀ i, refAddr demoWorld 0x5000 r ≤ i → i < refAddr demoWorld 0x5000 r + refSize r → demoSlot i) :
    Fits demoMem demoF demoSlot (.apply demoWorld (.ok (demoPatch n lib fs deps refs))) := by
  intro _
  refine ⟨?_, ?_⟩
  · intro u hu
    obtain ⟨f, hf, rfl⟩ := List.mem_map.mp hu
    have hn := n.toNat_lt
    refine Or.inr ⟨hfs f hf, ?_, ?_⟩
    · simp only [demoWorld]; omega
    · simp only [inPad, demoWorld, demo_body]
      rcases hfs f hf with rfl | rfl <;> omega
  · intro r hr so hso
    simp only [demoWorld, Option.some.injEq] at hso
    subst hso
    exact hrefs r hr

/-- "libA" and "libB". -/
def libA : Str := [108, 105, 98, 65]
def libB : Str := [108, 105, 98, 66]

def demoRefs : List RefM :=
  [{ targetName := [1], refName := [2], targetOff := 0x123, patchOff := 8, tls := false }]

/-- Two overlapping patches, the second depending on the first; an attempt to revert the first, a
revert of the second, disabling and enabling, a check. -/
def demoReqs : List Request :=
  [.apply demoWorld (.ok (demoPatch 1 libA [0x1000, 0x2000] [] demoRefs)),
   .apply demoWorld (.ok (demoPatch 2 libA [0x1000] [[1]] [])),
   .apply demoWorld (.ok (demoRevert 1 libA)),
   .toggle,
   .apply demoWorld (.ok (demoRevert 2 libA)),
   .toggle,
   .check [2],
   .apply demoWorld (.ok (demoPatch 1 libA [0x2000] [] []))]

theorem demo_reqs_fit : ∀ r ∈ demoReqs, Fits demoMem demoF demoSlot r := by
  intro r hr
  simp only [demoReqs, List.mem_cons, List.not_mem_nil, or_false] at hr
  rcases hr with rfl | rfl | rfl | rfl | rfl | rfl | rfl | rfl
  · refine demo_fits _ _ _ _ _ (by simp [demoF]) ?_
    intro r hr
    simp only [demoRefs, List.mem_singleton] at hr
    subst hr
    simp [refAddr, refSize, demoSlot]
    omega
  · exact demo_fits _ _ _ _ _ (by simp [demoF]) (by simp)
  · simp [Fits, demoRevert]
  · trivial
  · simp [Fits, demoRevert]
  · trivial
  · trivial
  · exact demo_fits _ _ _ _ _ (by simp [demoF]) (by simp)

theorem demo_run : ∃ s, serveAll 10 (State.init demoMem) demoReqs =
    some (s, [0, 0, EDEPEND, EUSRBLOCKED, EUSRBLOCKED, ENONE, 1, EAPPLIED]) ∧ s.err = ENONE := by
  have h : (serveAll 10 (State.init demoMem) demoReqs).map (fun p => (p.2, p.1.err)) =
    some ([0, 0, EDEPEND, EUSRBLOCKED, EUSRBLOCKED, ENONE, 1, EAPPLIED], ENONE) := by decide +kernel
  cases hs : serveAll 10 (State.init demoMem) demoReqs with
  | none => simp [hs] at h
  | some p =>
    obtain ⟨s, as⟩ := p
    simp only [hs, Option.map_some, Option.some.injEq, Prod.mk.injEq] at h
    exact ⟨s, by rw [h.1], h.2⟩

/-! ### C18 -/

/-- **C18** After any history of apply, revert, revert-all, check and enable/disable requests from a
fresh process, as long as no internal error was recorded, a call of any livepatchable function goes to
the replacement supplied by the newest patch still applied (according to requests and answers), or to
the original body. -/
theorem C18_calls_reach_newest {m₀ : Mem} {F slot : Nat → Prop} (hI : Image m₀ F slot) (fuel : Nat)
    (reqs : List Request) (hfit : ∀ r ∈ reqs, Fits m₀ F slot r) (s : State) (as : List Nat)
    (h : serveAll fuel (State.init m₀) reqs = some (s, as)) (hh : healthy s.err) (f : Nat) (hf : F f) :
    callDest s.mem f = some ((replacement (trackAll [] reqs as) f).getD (body m₀ f)) :=
  ((serveAll_inv hI reqs hfit _ _ _ _ (init_inv hI) h).good hh).calls hI.range f hf

example : ∃ s as, serveAll 10 (State.init demoMem) demoReqs = some (s, as) ∧
    callDest s.mem 0x1000 = some 0x700002 ∧ callDest s.mem 0x2000 = some 0x700001 := by
  obtain ⟨s, h, he⟩ := demo_run
  refine ⟨s, _, h, ?_, ?_⟩
  · rw [C18_calls_reach_newest demo_image 10 demoReqs demo_reqs_fit s _ h (Or.inl he) _ (Or.inl rfl)]
    decide +kernel
  · rw [C18_calls_reach_newest demo_image 10 demoReqs demo_reqs_fit s _ h (Or.inl he) _ (Or.inr rfl)]
    decide +kernel

/-! ### C19 -/

/-- **C19** A successful revert of patch `m.id` in any reachable state makes every function dispatch as
if only the other applied patches had been applied, in the same order. -/
theorem C19_revert_undoes_exactly {m₀ : Mem} {F slot : Nat → Prop} (hI : Image m₀ F slot) (fuel : Nat)
    (reqs : List Request) (hfit : ∀ r ∈ reqs, Fits m₀ F slot r) (s : State) (as : List Nat)
    (h : serveAll fuel (State.init m₀) reqs = some (s, as))
    (w : World) (m : Meta) (ht : m.type = 2) (s' : State)
    (h' : serve fuel s (.apply w (.ok m)) = some (s', 0)) (hh : healthy s'.err) (f : Nat) (hf : F f) :
    callDest s'.mem f =
      some ((replacement ((trackAll [] reqs as).filter (fun p => p.id ≠ m.id)) f).getD (body m₀ f)) := by
  have hi := serveAll_inv hI reqs hfit _ _ _ _ (init_inv hI) h
  have hf' : Fits m₀ F slot (.apply w (.ok m)) := by intro h1; omega
  have h2 := serve_inv hI hf' hi h'
  have := (h2.good hh).calls hI.range f hf
  simpa [track, ht] using this

/-- **C19** Applying and then reverting a patch restores where every function's calls go. -/
theorem C19_apply_then_revert {m₀ : Mem} {F slot : Nat → Prop} (hI : Image m₀ F slot) (fuel : Nat)
    (reqs : List Request) (hfit : ∀ r ∈ reqs, Fits m₀ F slot r) (s : State) (as : List Nat)
    (h : serveAll fuel (State.init m₀) reqs = some (s, as))
    (w w' : World) (m m' : Meta) (ht : m.type = 1) (ht' : m'.type = 2) (hid : m'.id = m.id)
    (hfm : Fits m₀ F slot (.apply w (.ok m))) (s₁ s₂ : State)
    (h₁ : serve fuel s (.apply w (.ok m)) = some (s₁, 0))
    (h₂ : serve fuel s₁ (.apply w' (.ok m')) = some (s₂, 0)) (hh : healthy s₂.err) (hs : healthy s.err)
    (f : Nat) (hf : F f) : callDest s₂.mem f = callDest s.mem f := by
  have hi := serveAll_inv hI reqs hfit _ _ _ _ (init_inv hI) h
  have hi1 := serve_inv hI hfm hi h₁
  have hi2 := serve_inv hI (by intro h1; omega) hi1 h₂
  rw [(hi2.good hh).calls hI.range f hf, (hi.good hs).calls hI.range f hf]
  have hb := hi1.book.ids
  simp only [track, ht, if_true, List.map_cons, List.nodup_cons] at hb
  have : track (track (trackAll [] reqs as) (.apply w (.ok m)) 0) (.apply w' (.ok m')) 0 = trackAll [] reqs as := by
    simp only [track, ht, ht', if_true]
    rw [if_neg (by decide)]
    have hp : (patchOf w m).id = m'.id := hid.symm
    have hself : (trackAll [] reqs as).filter (fun p => p.id ≠ m'.id) = trackAll [] reqs as := by
      rw [List.filter_eq_self]
      intro q hq
      have : q.id ≠ m'.id := by
        intro hc
        exact hb.1 (List.mem_map.mpr ⟨q, hq, hc.trans hp.symm⟩)
      simpa using this
    rw [List.filter_cons, if_neg (by simp [hp]), hself]
  rw [this]

theorem revert_accepted_of_inv {m₀ : Mem} {F slot : Nat → Prop} (hI : Image m₀ F slot) (fuel : Nat)
    (s : State) (ps : List Patch) (hi : Inv m₀ F slot s ps) (he : s.err = ENONE)
    (w : World) (hb : w.busy = false) (m : Meta) (ht : m.type = 2)
    (hin : ∃ p ∈ ps, p.id = m.id)
    (hdep : ∀ p ∈ ps, m.id ∉ p.deps) :
    ∃ s', serve fuel s (.apply w (.ok m)) = some (s', 0) := by
  have hg := hi.good (Or.inl he)
  have hc : canRevert s m.id = 0 := by
    rw [← hg.shown] at hin hdep
    unfold canRevert
    obtain ⟨p, hp, hpid⟩ := hin
    obtain ⟨p', hp', rfl⟩ := List.mem_map.mp hp
    have h1 : ¬ (getApplied s m.id).isNone = true := by
      unfold getApplied
      rw [Option.isNone_iff_eq_none, List.find?_eq_none]
      intro hc
      exact hc p' hp' (by simpa [toPatch] using hpid)
    rw [if_neg h1]
    have h2 : ¬ (s.patches.any fun p => p.deps.any fun d => d == m.id) = true := by
      intro hc
      rw [List.any_eq_true] at hc
      obtain ⟨q, hq, hqd⟩ := hc
      rw [List.any_eq_true] at hqd
      obtain ⟨d, hd, hdm⟩ := hqd
      have : d = m.id := by simpa using hdm
      subst this
      exact hdep (toPatch q) (List.mem_map.mpr ⟨q, hq, rfl⟩) (by simpa [toPatch] using hd)
    rw [if_neg h2]
  have hr := (revertPatch_ok hI hg (hg.ready hI.range) hc).1
  refine ⟨settle (revertPatch s m.id).1, ?_⟩
  simp only [serve]
  unfold applyPatch
  rw [gate_clean hi.clean]
  simp only [he, hb, ne_eq, not_true_eq_false, if_false, Bool.false_eq_true]
  have : loadPatch w m s = revertPatch s m.id := by
    unfold loadPatch
    simp [ht, hc]
  rw [this, hr]

/-- **C19** (acceptance) In a reachable state without recorded error, reverting an applied patch on
which no applied patch depends is accepted. -/
theorem C19_revert_accepted {m₀ : Mem} {F slot : Nat → Prop} (hI : Image m₀ F slot) (fuel : Nat)
    (reqs : List Request) (hfit : ∀ r ∈ reqs, Fits m₀ F slot r) (s : State) (as : List Nat)
    (h : serveAll fuel (State.init m₀) reqs = some (s, as)) (he : s.err = ENONE)
    (w : World) (hb : w.busy = false) (m : Meta) (ht : m.type = 2)
    (hin : ∃ p ∈ trackAll [] reqs as, p.id = m.id)
    (hdep : ∀ p ∈ trackAll [] reqs as, m.id ∉ p.deps) :
    ∃ s', serve fuel s (.apply w (.ok m)) = some (s', 0) :=
  revert_accepted_of_inv hI fuel s _ (serveAll_inv hI reqs hfit _ _ _ _ (init_inv hI) h) he w hb m ht hin hdep

/-- Reverting the lower of two patches (no dependency), then the roundtrip on top of one patch. -/
def demoStack : List Request :=
  [.apply demoWorld (.ok (demoPatch 1 libA [0x1000, 0x2000] [] [])),
   .apply demoWorld (.ok (demoPatch 2 libA [0x1000] [] []))]

theorem demo_stack_fit : ∀ r ∈ demoStack, Fits demoMem demoF demoSlot r := by
  intro r hr
  simp only [demoStack, List.mem_cons, List.not_mem_nil, or_false] at hr
  rcases hr with rfl | rfl
  · exact demo_fits _ _ _ _ _ (by simp [demoF]) (by simp)
  · exact demo_fits _ _ _ _ _ (by simp [demoF]) (by simp)

theorem run_of_eval {fuel m reqs as e} (h : (serveAll fuel (State.init m) reqs).map (fun p => (p.2, p.1.err)) =
    some (as, e)) : ∃ s, serveAll fuel (State.init m) reqs = some (s, as) ∧ s.err = e := by
  cases hs : serveAll fuel (State.init m) reqs with
  | none => simp [hs] at h
  | some p =>
    obtain ⟨s, as'⟩ := p
    simp only [hs, Option.map_some, Option.some.injEq, Prod.mk.injEq] at h
    exact ⟨s, by rw [h.1], h.2⟩

theorem demo_stack_run : ∃ s, serveAll 10 (State.init demoMem) demoStack = some (s, [0, 0]) ∧ s.err = ENONE :=
  run_of_eval (by decide +kernel)

example : ∃ s s', serveAll 10 (State.init demoMem) demoStack = some (s, [0, 0]) ∧
    serve 10 s (.apply demoWorld (.ok (demoRevert 1 libA))) = some (s', 0) := by
  obtain ⟨s, h, he⟩ := demo_stack_run
  obtain ⟨s', h'⟩ := C19_revert_accepted demo_image 10 demoStack demo_stack_fit s _ h he demoWorld rfl
    (demoRevert 1 libA) rfl (by decide +kernel) (by decide +kernel)
  exact ⟨s, s', h, h'⟩

/-- The hypotheses of `C19_revert_undoes_exactly` on the same history: reverting patch 1 leaves 0x1000
with patch 2 and gives 0x2000 back its own body. -/
example : ((serveAll 10 (State.init demoMem)
      (demoStack ++ [.apply demoWorld (.ok (demoRevert 1 libA))])).map fun p =>
        (p.2, p.1.err, callDest p.1.mem 0x1000, callDest p.1.mem 0x2000)) =
    some ([0, 0, 0], ENONE, some 0x700002, some 0x2002) := by decide +kernel

/-! ### C20 -/

/-- **C20** After any history, no patch is applied twice according to requests and answers. -/
theorem C20_applied_is_a_set {m₀ : Mem} {F slot : Nat → Prop} (hI : Image m₀ F slot) (fuel : Nat)
    (reqs : List Request) (hfit : ∀ r ∈ reqs, Fits m₀ F slot r) (s : State) (as : List Nat)
    (h : serveAll fuel (State.init m₀) reqs = some (s, as)) :
    ((trackAll [] reqs as).map (fun p => p.id)).Nodup :=
  (serveAll_inv hI reqs hfit _ _ _ _ (init_inv hI) h).book.ids

/-- **C20** After any history without recorded error, a check answers 1 exactly for the patches whose
apply succeeded and that were not reverted since, and 0 for all others. -/
theorem C20_check_exact {m₀ : Mem} {F slot : Nat → Prop} (hI : Image m₀ F slot) (fuel : Nat)
    (reqs : List Request) (hfit : ∀ r ∈ reqs, Fits m₀ F slot r) (s : State) (as : List Nat)
    (h : serveAll fuel (State.init m₀) reqs = some (s, as)) (he : s.err = ENONE) (id : Id) :
    serve fuel s (.check id) =
      some (s, if id ∈ (trackAll [] reqs as).map (fun p => p.id) then 1 else 0) := by
  have hg := (serveAll_inv hI reqs hfit _ _ _ _ (init_inv hI) h).good (Or.inl he)
  simp only [serve, checkApplied, he, ne_eq, not_true_eq_false, if_false]
  rw [← hg.shown, List.map_map]
  have : (getApplied s id).isSome = true ↔ id ∈ s.patches.map ((fun p => p.id) ∘ toPatch) := by
    unfold getApplied
    rw [List.find?_isSome, List.mem_map]
    simp [toPatch]
  by_cases hm : id ∈ s.patches.map ((fun p => p.id) ∘ toPatch)
  · rw [if_pos hm, if_pos (this.mpr hm)]
  · rw [if_neg hm, if_neg (fun hc => hm (this.mp hc))]

/-- **C20** After any history without recorded error, applying a patch that is applied (and otherwise in
order) is refused with EAPPLIED and the process is left exactly as it was. -/
theorem C20_reapply_refused {m₀ : Mem} {F slot : Nat → Prop} (hI : Image m₀ F slot) (fuel : Nat)
    (reqs : List Request) (hfit : ∀ r ∈ reqs, Fits m₀ F slot r) (s : State) (as : List Nat)
    (h : serveAll fuel (State.init m₀) reqs = some (s, as)) (he : s.err = ENONE)
    (w : World) (hb : w.busy = false) (hbi : w.buildIdOk = true) (m : Meta) (ht : m.type ≠ 2)
    (hdeps : ∀ d ∈ m.deps, d ∈ (trackAll [] reqs as).map (fun p => p.id))
    (hin : m.id ∈ (trackAll [] reqs as).map (fun p => p.id)) :
    serve fuel s (.apply w (.ok m)) = some (s, EAPPLIED) := by
  have hi := serveAll_inv hI reqs hfit _ _ _ _ (init_inv hI) h
  have hg := hi.good (Or.inl he)
  rw [← hg.shown, List.map_map] at hin hdeps
  have hd : depsOk s m.deps = true := by
    unfold depsOk
    rw [List.all_eq_true]
    intro d hd
    obtain ⟨p, hp, hpd⟩ := List.mem_map.mp (hdeps d hd)
    rw [List.any_eq_true]
    exact ⟨p, hp, by simpa [toPatch] using hpd⟩
  have ha : (getApplied s m.id).isSome = true := by
    obtain ⟨p, hp, hpd⟩ := List.mem_map.mp hin
    unfold getApplied
    rw [List.find?_isSome]
    exact ⟨p, hp, by simpa [toPatch] using hpd⟩
  have hl : loadPatch w m s = (s, EAPPLIED) := by
    have hsan : sanity w m s = EAPPLIED := by unfold sanity; simp [hbi, hd, ha]
    unfold loadPatch
    simp only [ht, if_false, hsan]
    rw [if_pos (by decide)]
  simp only [serve]
  unfold applyPatch
  rw [gate_clean hi.clean]
  simp only [he, hb, ne_eq, not_true_eq_false, if_false, Bool.false_eq_true, hl]
  rw [settle_clean hi.clean]

example : ∃ s, serveAll 10 (State.init demoMem) demoStack = some (s, [0, 0]) ∧
    serve 10 s (.check [1]) = some (s, 1) ∧ serve 10 s (.check [7]) = some (s, 0) ∧
    serve 10 s (.apply demoWorld (.ok (demoPatch 1 libB [0x2000] [[2]] []))) = some (s, EAPPLIED) := by
  obtain ⟨s, h, he⟩ := demo_stack_run
  refine ⟨s, h, ?_, ?_, ?_⟩
  · rw [C20_check_exact demo_image 10 demoStack demo_stack_fit s _ h he]; rw [if_pos (by decide +kernel)]
  · rw [C20_check_exact demo_image 10 demoStack demo_stack_fit s _ h he]; rw [if_neg (by decide +kernel)]
  · exact C20_reapply_refused demo_image 10 demoStack demo_stack_fit s _ h he demoWorld rfl rfl _ (by decide)
      (by decide +kernel) (by decide +kernel)

/-! ### C21 -/

/-- **C21** After any history, everything an applied patch depends on is applied. -/
theorem C21_dependencies_satisfied {m₀ : Mem} {F slot : Nat → Prop} (hI : Image m₀ F slot) (fuel : Nat)
    (reqs : List Request) (hfit : ∀ r ∈ reqs, Fits m₀ F slot r) (s : State) (as : List Nat)
    (h : serveAll fuel (State.init m₀) reqs = some (s, as)) :
    ∀ p ∈ trackAll [] reqs as, ∀ d ∈ p.deps, ∃ q ∈ trackAll [] reqs as, q.id = d :=
  (serveAll_inv hI reqs hfit _ _ _ _ (init_inv hI) h).book.deps

/-- **C21** Applying with a missing dependency is refused without effect. -/
theorem C21_missing_dependency_refused {m₀ : Mem} {F slot : Nat → Prop} (hI : Image m₀ F slot) (fuel : Nat)
    (reqs : List Request) (hfit : ∀ r ∈ reqs, Fits m₀ F slot r) (s : State) (as : List Nat)
    (h : serveAll fuel (State.init m₀) reqs = some (s, as)) (he : s.err = ENONE)
    (w : World) (hb : w.busy = false) (hbi : w.buildIdOk = true) (m : Meta) (ht : m.type ≠ 2)
    (d : Id) (hd : d ∈ m.deps) (hmiss : ∀ p ∈ trackAll [] reqs as, p.id ≠ d) :
    serve fuel s (.apply w (.ok m)) = some (s, EDEPEND) := by
  have hi := serveAll_inv hI reqs hfit _ _ _ _ (init_inv hI) h
  have hg := hi.good (Or.inl he)
  rw [← hg.shown] at hmiss
  have hdo : depsOk s m.deps = false := by
    unfold depsOk
    rw [List.all_eq_false]
    refine ⟨d, hd, ?_⟩
    rw [List.any_eq_true]
    rintro ⟨p, hp, hpd⟩
    exact hmiss (toPatch p) (List.mem_map.mpr ⟨p, hp, rfl⟩) (by simpa [toPatch] using hpd)
  have hl : loadPatch w m s = (s, EDEPEND) := by
    have hsan : sanity w m s = EDEPEND := by unfold sanity; simp [hbi, hdo]
    unfold loadPatch
    simp only [ht, if_false, hsan]
    rw [if_pos (by decide)]
  simp only [serve]
  unfold applyPatch
  rw [gate_clean hi.clean]
  simp only [he, hb, ne_eq, not_true_eq_false, if_false, Bool.false_eq_true, hl]
  rw [settle_clean hi.clean]

/-- **C21** Reverting a patch that an applied patch depends on is refused without effect. -/
theorem C21_depended_on_not_reverted {m₀ : Mem} {F slot : Nat → Prop} (hI : Image m₀ F slot) (fuel : Nat)
    (reqs : List Request) (hfit : ∀ r ∈ reqs, Fits m₀ F slot r) (s : State) (as : List Nat)
    (h : serveAll fuel (State.init m₀) reqs = some (s, as)) (he : s.err = ENONE)
    (w : World) (hb : w.busy = false) (m : Meta) (ht : m.type = 2)
    (p : Patch) (hp : p ∈ trackAll [] reqs as) (hd : m.id ∈ p.deps) :
    serve fuel s (.apply w (.ok m)) = some (s, EDEPEND) := by
  have hi := serveAll_inv hI reqs hfit _ _ _ _ (init_inv hI) h
  have hg := hi.good (Or.inl he)
  obtain ⟨q, hq, hqd⟩ := hi.book.deps p hp m.id hd
  rw [← hg.shown] at hp hq
  obtain ⟨p', hp', rfl⟩ := List.mem_map.mp hp
  obtain ⟨q', hq', rfl⟩ := List.mem_map.mp hq
  have hc : canRevert s m.id = EDEPEND := by
    unfold canRevert
    have h1 : ¬ (getApplied s m.id).isNone = true := by
      unfold getApplied
      rw [Option.isNone_iff_eq_none, List.find?_eq_none]
      intro hc
      exact hc q' hq' (by simpa [toPatch] using hqd)
    rw [if_neg h1, if_pos]
    rw [List.any_eq_true]
    refine ⟨p', hp', ?_⟩
    rw [List.any_eq_true]
    exact ⟨m.id, by simpa [toPatch] using hd, by simp⟩
  have hl : loadPatch w m s = (s, EDEPEND) := by
    unfold loadPatch
    simp only [ht, if_true, hc]
    rfl
  simp only [serve]
  unfold applyPatch
  rw [gate_clean hi.clean]
  simp only [he, hb, ne_eq, not_true_eq_false, if_false, Bool.false_eq_true, hl]
  rw [settle_clean hi.clean]

example : ∃ s as, serveAll 10 (State.init demoMem) demoReqs = some (s, as) ∧
    (∀ p ∈ trackAll [] demoReqs as, ∀ d ∈ p.deps, ∃ q ∈ trackAll [] demoReqs as, q.id = d) ∧
    (∃ p ∈ trackAll [] demoReqs as, p.deps = [[1]]) ∧
    serve 10 s (.apply demoWorld (.ok (demoPatch 5 libB [0x2000] [[1], [9]] []))) = some (s, EDEPEND) ∧
    serve 10 s (.apply demoWorld (.ok (demoRevert 1 libA))) = some (s, EDEPEND) := by
  obtain ⟨s, h, he⟩ := demo_run
  refine ⟨s, _, h, C21_dependencies_satisfied demo_image 10 demoReqs demo_reqs_fit s _ h, by decide +kernel, ?_, ?_⟩
  · exact C21_missing_dependency_refused demo_image 10 demoReqs demo_reqs_fit s _ h he demoWorld rfl rfl _
      (by decide) [9] (by decide) (by decide +kernel)
  · exact C21_depended_on_not_reverted demo_image 10 demoReqs demo_reqs_fit s _ h he demoWorld rfl
      (demoRevert 1 libA) rfl (patchOf demoWorld (demoPatch 2 libA [0x1000] [[1]] [])) (by decide +kernel) (by decide)

/-! ### C22 -/

theorem serve_frozen {fuel s r} (hi : Idle s) (he : s.err ≠ ENONE) (hr : isToggle r = false) :
    serve fuel s r = some (s, frozenAnswer s.err r) := by
  cases r with
  | apply w m =>
    simp only [serve]
    unfold applyPatch
    rw [gate_clean hi]
    simp only [if_pos he, frozenAnswer]
    rw [settle_clean hi]
  | revertAll w lib =>
    simp only [serve]
    unfold revertAll
    rw [gate_clean hi]
    simp only [if_pos he, frozenAnswer, Option.map_some]
    rw [settle_clean hi]
  | check id => simp [serve, checkApplied, he, frozenAnswer]
  | toggle => simp [isToggle] at hr

theorem toggle_frozen {s : State} (h : ¬ healthy s.err) : toggle s = (s, s.err) := by
  unfold healthy at h
  unfold toggle
  have h1 : ¬ s.err = ENONE := fun hc => h (Or.inl hc)
  have h2 : ¬ s.err = EUSRBLOCKED := fun hc => h (Or.inr hc)
  simp only [if_neg h1, if_neg h2]

/-- **C22**, the part that is true: once an internal error is recorded, and provided the tool did not die
leaving an unexecuted queue, every later sequence of requests whatsoever leaves the whole process
exactly as it is, and each of them answers with that error (checks with 0).  Missing: a non-empty queue,
for which the claim is false, see `C22_leftover_queue_executed`. -/
theorem C22_internal_error_freezes_partial (fuel : Nat) (s : State) (hi : Idle s) (he : ¬ healthy s.err)
    (reqs : List Request) : serveAll fuel s reqs = some (s, reqs.map (frozenAnswer s.err)) := by
  induction reqs with
  | nil => rfl
  | cons r rs ih =>
    have : serve fuel s r = some (s, frozenAnswer s.err r) := by
      cases hr : isToggle r with
      | false => exact serve_frozen hi (fun hc => he (Or.inl hc)) hr
      | true =>
        cases r <;> simp [isToggle] at hr
        simp only [serve, toggle_frozen he, frozenAnswer]
    simp only [serveAll, this, ih, Option.map_some, List.map_cons]

/-- **C22** Libpulp's own part of a request never does anything in a process with a recorded error,
whatever its queue holds. -/
theorem C22_libpulp_refuses (fuel : Nat) (s : State) (he : s.err ≠ ENONE) (w : World) (m : Except Err Meta)
    (lib : Str) : applyPatch w m s = (s, s.err) ∧ revertAll fuel w lib s = some (s, s.err) := by
  unfold applyPatch revertAll gate
  simp [he]

/-- Every reachable state is idle. -/
theorem reachable_idle {m₀ : Mem} {F slot : Nat → Prop} (hI : Image m₀ F slot) (fuel : Nat)
    (reqs : List Request) (hfit : ∀ r ∈ reqs, Fits m₀ F slot r) (s : State) (as : List Nat)
    (h : serveAll fuel (State.init m₀) reqs = some (s, as)) : Idle s :=
  (serveAll_inv hI reqs hfit _ _ _ _ (init_inv hI) h).clean

/-- Only 0x1000 is livepatchable here: 0x2000 starts with `push %rbp`. -/
def badMem : Mem := fun i => if i = 0x2000 then 0x55 else 0x90

/-- A patch that is refused halfway: 0x1000 can be patched, 0x2000 cannot. -/
def halfPatch : Request := .apply demoWorld (.ok (demoPatch 1 libA [0x1000, 0x2000] [] []))

/-- An internal error gets recorded and freezes the process. -/
example : ∃ s, serveAll 10 (State.init badMem) [halfPatch] = some (s, [ENOPATCHABLE]) ∧ s.err = EUNKNOWN ∧
    Idle s ∧ serveAll 10 s [halfPatch, .toggle, .check [1], .revertAll demoWorld libA] =
      some (s, [EUNKNOWN, EUNKNOWN, 0, EUNKNOWN]) := by
  have hd : (serveAll 10 (State.init badMem) [halfPatch]).map (fun p => (p.2, p.1.err, p.1.q.num, p.1.q.size, p.1.q.version)) =
    some ([ENOPATCHABLE], EUNKNOWN, 0, 0, 1) := by decide +kernel
  cases hs : serveAll 10 (State.init badMem) [halfPatch] with
  | none => simp [hs] at hd
  | some p =>
    obtain ⟨s, as⟩ := p
    simp only [hs, Option.map_some, Option.some.injEq, Prod.mk.injEq] at hd
    obtain ⟨rfl, he, h1, h2, h3⟩ := hd
    have hi : Idle s := ⟨h1, h2, by omega⟩
    refine ⟨s, rfl, he, hi, ?_⟩
    rw [C22_internal_error_freezes_partial 10 s hi (by rw [he]; unfold healthy; decide)]
    simp [frozenAnswer, he, halfPatch]

/-- Negation of **C22**: the tool dies after libpulp has recorded an internal error but before executing
the queue.  A later request is answered with that error, yet redirects the function at 0x1000: the tool
executes the queue without looking at libpulp's answer (tools/introspection.c:1735). -/
theorem C22_leftover_queue_executed :
    let s := (applyPatch demoWorld (.ok (demoPatch 1 libA [0x1000, 0x2000] [] [])) (State.init badMem)).1
    s.err = EUNKNOWN ∧ callDest s.mem 0x1000 = some 0x1002 ∧
    ∃ s', serve 10 s (.apply demoWorld (.ok (demoPatch 7 libA [0x1000] [] []))) = some (s', EUNKNOWN) ∧
      callDest s'.mem 0x1000 = some 0x700001 := by
  refine ⟨by decide +kernel, by decide +kernel, ?_⟩
  refine ⟨_, rfl, by decide +kernel⟩

/-! ### C06, the library's part -/

/-- **C06** If a request arrives while the queue still holds instructions of an aborted request, it is
refused with EINSNQ (or an earlier recorded error) and libpulp neither adds to the queue nor applies or
reverts anything. -/
theorem C06_nonempty_queue_refused (fuel : Nat) (s : State) (hq : s.q.num ≠ 0 ∨ s.q.size ≠ 0)
    (w : World) (m : Except Err Meta) (lib : Str) :
    let e := if s.err = ENONE then EINSNQ else s.err
    applyPatch w m s = ({ s with err := e }, e) ∧ revertAll fuel w lib s = some ({ s with err := e }, e) := by
  by_cases he : s.err = ENONE
  · have : InsnQueue.ensureEmptiness ⟨s.q, s.err⟩ = (⟨s.q, EINSNQ⟩, 1) := by
      unfold InsnQueue.ensureEmptiness
      rw [if_pos (by simp only; omega)]
    unfold applyPatch revertAll gate
    simp [he] at this ⊢
    simp [this]
  · unfold applyPatch revertAll gate
    simp [he]

example : let s := (applyPatch demoWorld (.ok (demoPatch 1 libA [0x1000] [] [])) (State.init demoMem)).1
    s.err = ENONE ∧ s.q.num ≠ 0 ∧ (applyPatch demoWorld (.ok (demoPatch 2 libA [0x2000] [] [])) s).2 = EINSNQ := by
  decide +kernel

/-! ### C23 -/

/-- **C23** While livepatching is disabled, every sequence of requests leaves the process as it is and is
answered with EUSRBLOCKED; enabling it then restores exactly the process as it was. -/
theorem C23_disable_enable (fuel : Nat) (s : State) (hi : Idle s) (he : s.err = ENONE) (reqs : List Request)
    (hr : ∀ r ∈ reqs, isToggle r = false) :
    serveAll fuel s (.toggle :: reqs ++ [.toggle]) =
      some (s, EUSRBLOCKED :: reqs.map (frozenAnswer EUSRBLOCKED) ++ [ENONE]) := by
  have hmid : ∀ t : State, Idle t → t.err = EUSRBLOCKED →
      serveAll fuel t (reqs ++ [.toggle]) =
        some ({ t with err := ENONE }, reqs.map (frozenAnswer EUSRBLOCKED) ++ [ENONE]) := by
    intro t ht hte
    induction reqs with
    | nil =>
      simp [serveAll, serve, toggle, hte, EUSRBLOCKED, ENONE]
    | cons r rs ih =>
      have h1 := serve_frozen (fuel := fuel) ht (by rw [hte]; decide) (hr r (by simp))
      have h2 := ih (fun r hr' => hr r (by simp [hr']))
      simp only [List.cons_append, serveAll, h1, h2, Option.map_some, List.map_cons, hte]
  have h1 : serve fuel s .toggle = some ({ s with err := EUSRBLOCKED }, EUSRBLOCKED) := by
    simp [serve, toggle, he]
  simp only [List.cons_append, serveAll, h1]
  rw [hmid { s with err := EUSRBLOCKED } ⟨hi.num, hi.size, hi.ver⟩ rfl]
  simp only [Option.map_some]
  rw [← he]

/-- **C23** Disabling and enabling change nothing but the block: a recorded internal error stays as it
is, and applied patches, function entries and queue stay as they are in every state. -/
theorem C23_toggle_only_blocks (s : State) :
    (¬ healthy s.err → toggle s = (s, s.err)) ∧ (healthy s.err → (toggle (toggle s).1).1 = s) ∧
    ∃ e, (toggle s).1 = { s with err := e } := by
  refine ⟨toggle_frozen, ?_, ?_⟩
  · obtain ⟨e, p, r, u, c, q, m⟩ := s
    rintro (h | h) <;> simp only at h <;> subst h <;> rfl
  · unfold toggle
    split
    · exact ⟨_, rfl⟩
    split
    · exact ⟨_, rfl⟩
    · exact ⟨s.err, rfl⟩

example : ∃ s, serveAll 10 (State.init demoMem) demoStack = some (s, [0, 0]) ∧
    serveAll 10 s (.toggle :: demoReqs.take 3 ++ [.toggle]) =
      some (s, [EUSRBLOCKED, EUSRBLOCKED, EUSRBLOCKED, EUSRBLOCKED, ENONE]) := by
  obtain ⟨s, h, he⟩ := demo_stack_run
  refine ⟨s, h, ?_⟩
  rw [C23_disable_enable 10 s (reachable_idle demo_image 10 demoStack demo_stack_fit s _ h) he _
    (by simp [demoReqs, isToggle])]
  rfl

/-! ### C24 -/

/-- **C24** A request to a process inside the allocator or loader is answered with EAGAIN and leaves the
process as it was. -/
theorem C24_busy_untouched (fuel : Nat) (s : State) (hi : Idle s) (he : s.err = ENONE) (r : Request)
    (hb : isBusy r = true) : serve fuel s r = some (s, EAGAIN) := by
  cases r with
  | apply w m =>
    simp only [isBusy] at hb
    simp only [serve]
    unfold applyPatch
    rw [gate_clean hi]
    simp only [he, ne_eq, not_true_eq_false, if_false, hb, if_true]
    rw [settle_clean hi]
  | revertAll w lib =>
    simp only [isBusy] at hb
    simp only [serve]
    unfold revertAll
    rw [gate_clean hi]
    simp only [he, ne_eq, not_true_eq_false, if_false, hb, if_true, Option.map_some]
    rw [settle_clean hi]
  | check id => simp [isBusy] at hb
  | toggle => simp [isBusy] at hb

/-- **C24** Hence a history in which busy attempts are repeated later ends like one without the busy
attempts. -/
theorem C24_retry_same (fuel : Nat) (s : State) (hi : Idle s) (he : s.err = ENONE) (tries rest : List Request)
    (hb : ∀ r ∈ tries, isBusy r = true) :
    serveAll fuel s (tries ++ rest) =
      (serveAll fuel s rest).map fun (s', as) => (s', tries.map (fun _ => EAGAIN) ++ as) := by
  induction tries with
  | nil => simp
  | cons r rs ih =>
    have h1 := C24_busy_untouched fuel s hi he r (hb r (by simp))
    simp only [List.cons_append, serveAll, h1, ih (fun r hr => hb r (by simp [hr])), Option.map_map]
    rfl

example : ∃ s, serveAll 10 (State.init demoMem) demoStack = some (s, [0, 0]) ∧
    serve 10 s (.apply { demoWorld with busy := true } (.ok (demoRevert 2 libA))) = some (s, EAGAIN) := by
  obtain ⟨s, h, he⟩ := demo_stack_run
  exact ⟨s, h, C24_busy_untouched 10 s (reachable_idle demo_image 10 demoStack demo_stack_fit s _ h) he _ rfl⟩

/-! ### C25 -/

theorem applyUnits_error {w lib id} (us : List UnitM) (s : State) (h : ∃ res, resolveUnits w lib us = some res) :
    (applyUnits w lib id us s).2 = 0 ∨ (applyUnits w lib id us s).2 = ENOPATCHABLE := by
  induction us generalizing s with
  | nil => exact Or.inl rfl
  | cons u us ih =>
    obtain ⟨res, h⟩ := h
    simp only [resolveUnits] at h
    split at h
    · simp at h
    rename_i h1
    split at h
    · simp at h
    rename_i h2
    simp only [applyUnits, if_neg h1, if_neg h2]
    have hp : ∀ t : State, ∀ a b, (patchAddr t a b true).2 = 0 ∨ (patchAddr t a b true).2 = ENOPATCHABLE := by
      intro t a b
      unfold patchAddr X86.patchAddr
      cases X86.patchable t.mem a <;> simp
    split
    · rename_i hgt
      rcases hp _ _ _ with h0 | h0
      · rw [h0] at hgt; exact absurd hgt (Nat.lt_irrefl 0)
      · exact Or.inr h0
    · apply ih
      cases hr : resolveUnits w lib us with
      | none => simp [hr] at h
      | some r => exact ⟨r, rfl⟩

theorem applyRefs_error {w tb ti so} (refs : List RefM) (s : State) :
    (applyRefs w tb ti so refs s).2 = 0 ∨ (applyRefs w tb ti so refs s).2 = ENONEWFUNC := by
  induction refs generalizing s with
  | nil => exact Or.inl rfl
  | cons r rs ih =>
    unfold applyRefs
    simp only
    by_cases hc : r.patchOff = 0 ∧ (if r.patchOff = 0 then w.newSym r.refName else (so + r.patchOff) % 2 ^ 64) = 0
    · rw [if_pos hc]; exact Or.inr rfl
    · rw [if_neg hc]; exact ih _

/-- **C25**, the part that is true: an apply that is refused for a reason found before the first function
is touched (error recorded or blocked, queue not empty, busy, malformed metadata, build id, dependency,
already applied, dlopen failure, missing old or new function: every answer other than the four named)
leaves the process exactly as it was.  Missing: these four, for which the claim is false, see
`C25_refused_patch_redirects`. -/
theorem C25_refused_without_effect_partial (fuel : Nat) (s : State) (hi : Idle s) (w : World)
    (m : Except Err Meta) (s' : State) (a : Nat) (h : serve fuel s (.apply w m) = some (s', a)) (ha : a ≠ 0)
    (h1 : a ≠ ENOPATCHABLE) (h2 : a ≠ ENOADDRESS) (h3 : a ≠ EUNKNOWN) (h4 : a ≠ ENONEWFUNC) : s' = s := by
  simp only [serve, Option.some.injEq, Prod.mk.injEq] at h
  obtain ⟨rfl, rfl⟩ := h
  unfold applyPatch at *
  rw [gate_clean hi] at *
  by_cases he : s.err ≠ ENONE
  · simp only [if_pos he]; exact settle_clean hi
  simp only [if_neg he] at *
  cases hb : w.busy with
  | true => simp only [if_true]; exact settle_clean hi
  | false =>
  simp only [hb, Bool.false_eq_true, if_false] at *
  cases m with
  | error e => exact settle_clean hi
  | ok m =>
  simp only at *
  generalize hl : loadPatch w m s = p at *
  obtain ⟨s1, e⟩ := p
  simp only at *
  rcases loadPatch_refused hl ha with rfl | ⟨ht, s0, s2, hu, hall, rfl⟩
  · exact settle_clean hi
  · exfalso
    have hres : ∃ res, resolveUnits w m.lib m.units = some res := by
      unfold stateUpdate at hu
      cases hr : resolveUnits w m.lib m.units with
      | none => simp [hr] at hu
      | some r => exact ⟨r, rfl⟩
    have hu2 := applyUnits_error (id := m.id) m.units { s0 with univ := s0.univ + 1 } hres
    unfold applyAllUnits at hall
    generalize hau : applyUnits w m.lib m.id m.units { s0 with univ := s0.univ + 1 } = q at hall hu2
    obtain ⟨s3, e3⟩ := q
    simp only at hall hu2
    by_cases he3 : e3 ≠ 0
    · rw [if_pos he3] at hall
      rcases hu2 with h0 | h0
      · exact he3 h0
      · exact h1 ((Prod.mk.inj hall).2.symm.trans h0)
    rw [if_neg he3] at hall
    split at hall
    · exact h2 (Prod.mk.inj hall).2.symm
    cases hso : w.soBase with
    | none => rw [hso] at hall; exact h3 (Prod.mk.inj hall).2.symm
    | some so =>
      rw [hso] at hall
      simp only at hall
      split at hall
      · exact h2 (Prod.mk.inj hall).2.symm
      · rcases applyRefs_error (w := w) (tb := w.libBase (getBasename m.lib)) (ti := w.tlsIdx (getBasename m.lib))
          (so := so) m.refs s3 with h0 | h0
        · rw [hall] at h0; exact ha h0
        · rw [hall] at h0; exact h4 h0

def noDlopen : World := { demoWorld with dlopenOk := false }

example : ∃ s, serveAll 10 (State.init demoMem) demoStack = some (s, [0, 0]) ∧
    serve 10 s (.apply noDlopen (.ok (demoPatch 3 libA [0x2000] [] []))) = some (s, EDLOPEN) := by
  obtain ⟨s, h, he⟩ := demo_stack_run
  refine ⟨s, h, ?_⟩
  have hi := reachable_idle demo_image 10 demoStack demo_stack_fit s _ h
  have hn : (getApplied s [3]).isSome = false := by
    have := C20_check_exact demo_image 10 demoStack demo_stack_fit s _ h he [3]
    rw [if_neg (by decide +kernel)] at this
    simpa [serve, checkApplied, he] using this
  have ha : (applyPatch noDlopen (.ok (demoPatch 3 libA [0x2000] [] [])) s).2 = EDLOPEN := by
    unfold applyPatch
    rw [gate_clean hi]
    simp only [he, ne_eq, not_true_eq_false, if_false, noDlopen, demoWorld, Bool.false_eq_true]
    simp [loadPatch, sanity, depsOk, demoPatch] at hn ⊢
    simp [hn]
  have hs : serve 10 s (.apply noDlopen (.ok (demoPatch 3 libA [0x2000] [] []))) =
    some (settle (applyPatch noDlopen (.ok (demoPatch 3 libA [0x2000] [] [])) s).1,
      (applyPatch noDlopen (.ok (demoPatch 3 libA [0x2000] [] [])) s).2) := rfl
  rw [ha] at hs
  have := C25_refused_without_effect_partial 10 s hi noDlopen _ _ _ hs (by decide) (by decide) (by decide)
    (by decide) (by decide)
  rw [hs, this]

/-- **C25** Metadata that cannot be read are refused with the error of reading them, and nothing happens. -/
theorem C25_unreadable_refused (fuel : Nat) (s : State) (hi : Idle s) (he : s.err = ENONE) (w : World)
    (hb : w.busy = false) (e : Err) : serve fuel s (.apply w (.error e)) = some (s, e) := by
  simp only [serve]
  unfold applyPatch
  rw [gate_clean hi]
  simp only [he, ne_eq, not_true_eq_false, if_false, hb, Bool.false_eq_true]
  rw [settle_clean hi]

example : ∃ s, serveAll 10 (State.init demoMem) demoStack = some (s, [0, 0]) ∧
    serve 10 s (.apply demoWorld (.error EINVALIDULP)) = some (s, EINVALIDULP) := by
  obtain ⟨s, h, he⟩ := demo_stack_run
  exact ⟨s, h, C25_unreadable_refused 10 s (reachable_idle demo_image 10 demoStack demo_stack_fit s _ h) he _ rfl _⟩

/-- Negation of **C25**: the second function of the patch cannot be patched, so the apply is refused with
ENOPATCHABLE; but calls of the first function have been redirected. -/
theorem C25_refused_patch_redirects :
    ∃ s, serve 10 (State.init badMem) halfPatch = some (s, ENOPATCHABLE) ∧
      callDest badMem 0x1000 = some 0x1002 ∧ callDest s.mem 0x1000 = some 0x700001 :=
  ⟨_, rfl, by decide +kernel, by decide +kernel⟩

end Verif.Runtime
