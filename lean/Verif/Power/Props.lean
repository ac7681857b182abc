import Verif.Power.Invariant
import Verif.Runtime.Props

/-! Properties C161 to C164: applying and reverting livepatches in a process on POWER. -/

namespace Verif.Power

open Verif.Runtime hiding Good Inv area loadPatch_apply_ok
open Verif.Runtime.Spec (Patch track trackAll replacement healthy Idle patchOf libKey refAddr refSize namesFunction
  declaresReference)
open Power.Spec (callDest entryOff body inStub inPad Image Fits tlsGetAddr)
open Verif.InsnQueue (Req touches)
open Verif.InsnQueue.Spec (perform)

/-! ### a process for the examples

Memory full of NOPs but for the two instructions setting up the TOC pointer at 0x2000; two livepatchable
functions at 0x1000 (NOP at its address) and 0x2000 (NOP 8 bytes behind it) and one slot for references. -/

def demoMem : Mem := fun i =>
  if i = 0x2003 then 0x3c else if i = 0x2007 then 0x38 else if i % 4 = 3 then 0x60 else 0

/-- Any 44 bytes do. -/
def demoT : List UInt8 := List.replicate 44 0x77

theorem demo_t : demoT.length = 44 := by decide

theorem demo_off : entryOff demoMem 0x1000 = 0 ∧ entryOff demoMem 0x2000 = 8 := by decide +kernel

theorem demo_image : Image demoMem demoF demoSlot := by
  obtain ⟨o1, o2⟩ := demo_off
  refine ⟨?_, ?_, ?_, ?_, ?_⟩
  · rintro f (rfl | rfl) <;> decide
  · rintro f (rfl | rfl) <;> decide +kernel
  · rintro f (rfl | rfl) <;> decide +kernel
  · rintro f g i (rfl | rfl) (rfl | rfl) h1 h2 <;> simp only [inPad, body, o1, o2] at h1 h2 <;> omega
  · rintro f i (rfl | rfl) h1 h2 <;> simp only [inPad, body, o1, o2] at h1 <;> unfold demoSlot at h2 <;> omega

theorem demo_fits (n lib fs deps refs) (hfs : ∀ f ∈ fs, demoF f)
    (hrefs : ∀ r ∈ refs, refAddr demoWorld 0x5000 r < 2 ^ 64 ∧ ∀ i, refAddr demoWorld 0x5000 r ≤ i →
      i < refAddr demoWorld 0x5000 r + refSize r → demoSlot i) :
    Fits demoF demoSlot (.apply demoWorld (.ok (demoPatch n lib fs deps refs))) := by
  intro _
  refine ⟨?_, ?_⟩
  · intro u hu
    obtain ⟨f, hf, rfl⟩ := List.mem_map.mp hu
    have hn := n.toNat_lt
    refine Or.inr ⟨hfs f hf, ?_⟩
    simp only [demoWorld]; omega
  · intro r hr so hso
    simp only [demoWorld, Option.some.injEq] at hso
    subst hso
    exact hrefs r hr

/-- The requests of `Runtime.demoReqs` fit, too. -/
theorem demo_reqs_fit : ∀ r ∈ demoReqs, Fits demoF demoSlot r := by
  intro r hr
  simp only [demoReqs, List.mem_cons, List.not_mem_nil, or_false] at hr
  rcases hr with rfl | rfl | rfl | rfl | rfl | rfl | rfl | rfl
  · refine demo_fits _ _ _ _ _ (by simp [demoF]) ?_
    intro r hr
    simp only [Runtime.demoRefs, List.mem_singleton] at hr
    subst hr
    simp [refAddr, refSize, demoSlot]
    omega
  · exact demo_fits _ _ _ _ _ (by simp [demoF]) (by simp)
  · simp [Fits, demoRevert]
  · trivial
  · simp [Fits, demoRevert]
  · trivial
  · trivial
  · exact demo_fits _ _ _ _ _ (by simp [demoF]) (by simp)

theorem run_of_eval {t fuel m reqs as e} (h : (serveAll t fuel (State.init m) reqs).map (fun p => (p.2, p.1.err)) =
    some (as, e)) : ∃ s, serveAll t fuel (State.init m) reqs = some (s, as) ∧ s.err = e := by
  cases hs : serveAll t fuel (State.init m) reqs with
  | none => simp [hs] at h
  | some p =>
    obtain ⟨s, as'⟩ := p
    simp only [hs, Option.map_some, Option.some.injEq, Prod.mk.injEq] at h
    exact ⟨s, by rw [h.1], h.2⟩

theorem demo_run : ∃ s, serveAll demoT 10 (State.init demoMem) demoReqs =
    some (s, [0, 0, EDEPEND, EUSRBLOCKED, EUSRBLOCKED, ENONE, 1, EAPPLIED]) ∧ s.err = ENONE :=
  run_of_eval (by decide +kernel)

variable {t : List UInt8}

/-! ### C161 -/

/-- **C161** After any history of apply, revert, revert-all, check and enable/disable requests from a fresh process
on POWER, as long as no internal error was recorded, a call of any livepatchable function, whether it starts with
its NOP or with the setup of its TOC pointer, goes to the replacement supplied by the newest patch still applied
(according to requests and answers), or to the original body. -/
theorem C161_calls_reach_newest (ht : t.length = 44) {m₀ : Mem} {F slot : Nat → Prop} (hI : Image m₀ F slot)
    (fuel : Nat) (reqs : List Request) (hfit : ∀ r ∈ reqs, Fits F slot r) (s : State) (as : List Nat)
    (h : serveAll t fuel (State.init m₀) reqs = some (s, as)) (hh : healthy s.err) (f : Nat) (hf : F f) :
    callDest t (entryOff m₀ f) s.mem f = some ((replacement (trackAll [] reqs as) f).getD (body m₀ f)) :=
  ((serveAll_inv ht hI reqs hfit _ _ _ _ (init_inv hI) h).good hh).calls ht hI.range f hf

example : ∃ s as, serveAll demoT 10 (State.init demoMem) demoReqs = some (s, as) ∧
    callDest demoT 0 s.mem 0x1000 = some 0x700002 ∧ callDest demoT 8 s.mem 0x2000 = some 0x700001 := by
  obtain ⟨s, h, he⟩ := demo_run
  obtain ⟨o1, o2⟩ := demo_off
  refine ⟨s, _, h, ?_, ?_⟩
  · have := C161_calls_reach_newest demo_t demo_image 10 demoReqs demo_reqs_fit s _ h (Or.inl he) _ (Or.inl rfl)
    rw [o1] at this
    rw [this]
    decide +kernel
  · have := C161_calls_reach_newest demo_t demo_image 10 demoReqs demo_reqs_fit s _ h (Or.inl he) _ (Or.inr rfl)
    rw [o2] at this
    rw [this]
    decide +kernel

/-! ### C162 -/

/-- **C162** On POWER, a successful revert of patch `m.id` in any reachable state makes every function dispatch as
if only the other applied patches had been applied, in the same order. -/
theorem C162_revert_undoes_exactly (htl : t.length = 44) {m₀ : Mem} {F slot : Nat → Prop} (hI : Image m₀ F slot)
    (fuel : Nat) (reqs : List Request) (hfit : ∀ r ∈ reqs, Fits F slot r) (s : State) (as : List Nat)
    (h : serveAll t fuel (State.init m₀) reqs = some (s, as))
    (w : World) (m : Meta) (ht : m.type = 2) (s' : State)
    (h' : serve t fuel s (.apply w (.ok m)) = some (s', 0)) (hh : healthy s'.err) (f : Nat) (hf : F f) :
    callDest t (entryOff m₀ f) s'.mem f =
      some ((replacement ((trackAll [] reqs as).filter (fun p => p.id ≠ m.id)) f).getD (body m₀ f)) := by
  have hi := serveAll_inv htl hI reqs hfit _ _ _ _ (init_inv hI) h
  have hf' : Fits F slot (.apply w (.ok m)) := by intro h1; omega
  have h2 := serve_inv htl hI hf' hi h'
  have := (h2.good hh).calls htl hI.range f hf
  simpa [track, ht] using this

/-- **C162** On POWER, applying and then reverting a patch restores where every function's calls go. -/
theorem C162_apply_then_revert (htl : t.length = 44) {m₀ : Mem} {F slot : Nat → Prop} (hI : Image m₀ F slot)
    (fuel : Nat) (reqs : List Request) (hfit : ∀ r ∈ reqs, Fits F slot r) (s : State) (as : List Nat)
    (h : serveAll t fuel (State.init m₀) reqs = some (s, as))
    (w w' : World) (m m' : Meta) (ht : m.type = 1) (ht' : m'.type = 2) (hid : m'.id = m.id)
    (hfm : Fits F slot (.apply w (.ok m))) (s₁ s₂ : State)
    (h₁ : serve t fuel s (.apply w (.ok m)) = some (s₁, 0))
    (h₂ : serve t fuel s₁ (.apply w' (.ok m')) = some (s₂, 0)) (hh : healthy s₂.err) (hs : healthy s.err)
    (f : Nat) (hf : F f) :
    callDest t (entryOff m₀ f) s₂.mem f = callDest t (entryOff m₀ f) s.mem f := by
  have hi := serveAll_inv htl hI reqs hfit _ _ _ _ (init_inv hI) h
  have hi1 := serve_inv htl hI hfm hi h₁
  have hi2 := serve_inv htl hI (by intro h1; omega) hi1 h₂
  rw [(hi2.good hh).calls htl hI.range f hf, (hi.good hs).calls htl hI.range f hf]
  have hb := hi1.book.ids
  simp only [track, ht, if_true, List.map_cons, List.nodup_cons] at hb
  have : track (track (trackAll [] reqs as) (.apply w (.ok m)) 0) (.apply w' (.ok m')) 0 = trackAll [] reqs as := by
    simp only [track, ht, ht', if_true]
    rw [if_neg (by decide)]
    have hp : (patchOf w m).id = m'.id := hid.symm
    have hself : (trackAll [] reqs as).filter (fun p => p.id ≠ m'.id) = trackAll [] reqs as := by
      rw [List.filter_eq_self]
      intro q hq
      have : q.id ≠ m'.id := by
        intro hc
        exact hb.1 (List.mem_map.mpr ⟨q, hq, hc.trans hp.symm⟩)
      simpa using this
    rw [List.filter_cons, if_neg (by simp [hp]), hself]
  rw [this]

theorem revert_accepted_of_inv (htl : t.length = 44) {m₀ : Mem} {F slot : Nat → Prop} (hI : Image m₀ F slot)
    (fuel : Nat) (s : State) (ps : List Patch) (hi : Inv t m₀ F slot s ps) (he : s.err = ENONE)
    (w : World) (hb : w.busy = false) (m : Meta) (ht : m.type = 2) (hin : ∃ p ∈ ps, p.id = m.id) (hdep : ∀ p ∈ ps, m.id ∉ p.deps) :
    ∃ s', serve t fuel s (.apply w (.ok m)) = some (s', 0) := by
  have hg := hi.good (Or.inl he)
  have hc : canRevert s m.id = 0 := by
    rw [← hg.shown] at hin hdep
    unfold canRevert
    obtain ⟨p, hp, hpid⟩ := hin
    obtain ⟨p', hp', rfl⟩ := List.mem_map.mp hp
    have h1 : ¬ (getApplied s m.id).isNone = true := by
      unfold getApplied
      rw [Option.isNone_iff_eq_none, List.find?_eq_none]
      intro hc
      exact hc p' hp' (by simpa [toPatch] using hpid)
    rw [if_neg h1]
    have h2 : ¬ (s.patches.any fun p => p.deps.any fun d => d == m.id) = true := by
      intro hc
      rw [List.any_eq_true] at hc
      obtain ⟨q, hq, hqd⟩ := hc
      rw [List.any_eq_true] at hqd
      obtain ⟨d, hd, hdm⟩ := hqd
      have : d = m.id := by simpa using hdm
      subst this
      exact hdep (toPatch q) (List.mem_map.mpr ⟨q, hq, rfl⟩) (by simpa [toPatch] using hd)
    rw [if_neg h2]
  have hr := (revertPatch_ok htl hI hg hg.ready hc).1
  refine ⟨settle (revertPatch t s m.id).1, ?_⟩
  simp only [serve]
  unfold applyPatch
  rw [gate_clean hi.clean]
  simp only [he, hb, ne_eq, not_true_eq_false, if_false, Bool.false_eq_true]
  have : loadPatch t w m s = revertPatch t s m.id := by
    unfold loadPatch
    simp [ht, hc]
  rw [this, hr]

/-- **C162** (acceptance) In a reachable state without recorded error, reverting an applied patch on
which no applied patch depends is accepted. -/
theorem C162_revert_accepted (htl : t.length = 44) {m₀ : Mem} {F slot : Nat → Prop} (hI : Image m₀ F slot)
    (fuel : Nat) (reqs : List Request) (hfit : ∀ r ∈ reqs, Fits F slot r) (s : State) (as : List Nat)
    (h : serveAll t fuel (State.init m₀) reqs = some (s, as)) (he : s.err = ENONE)
    (w : World) (hb : w.busy = false) (m : Meta) (ht : m.type = 2)
    (hin : ∃ p ∈ trackAll [] reqs as, p.id = m.id)
    (hdep : ∀ p ∈ trackAll [] reqs as, m.id ∉ p.deps) :
    ∃ s', serve t fuel s (.apply w (.ok m)) = some (s', 0) :=
  revert_accepted_of_inv htl hI fuel s _ (serveAll_inv htl hI reqs hfit _ _ _ _ (init_inv hI) h) he w hb m ht hin hdep

/-- **C162** When, according to requests and answers, no patch is applied any more, the code is what it was at
the start: the only bytes that may differ are in the 52 bytes in front of a livepatchable function and in the
slots for references. -/
theorem C162_all_reverted_code_restored (htl : t.length = 44) {m₀ : Mem} {F slot : Nat → Prop} (hI : Image m₀ F slot)
    (fuel : Nat) (reqs : List Request) (hfit : ∀ r ∈ reqs, Fits F slot r) (s : State) (as : List Nat)
    (h : serveAll t fuel (State.init m₀) reqs = some (s, as)) (hh : healthy s.err)
    (hnone : trackAll [] reqs as = []) (i : Nat) (hpre : ∀ f, F f → ¬ (f - 52 ≤ i ∧ i < f)) (hs : ¬ slot i) :
    s.mem i = m₀ i := by
  have hi := serveAll_inv htl hI reqs hfit _ _ _ _ (init_inv hI) h
  have hg := hi.good hh
  by_cases ha : area m₀ F slot i
  · rcases ha with ⟨f, hf, hc | hc⟩ | hc
    · exact absurd hc (hpre f hf)
    · have he := hg.entries f hf
      have htop := hg.top f
      rw [hnone] at htop
      rw [show replacement [] f = none from rfl] at htop
      rw [htop] at he
      have h1 : s.mem.load (f + entryOff m₀ f) 4 = m₀.load (f + entryOff m₀ f) 4 := by
        rw [hI.nop f hf]; simpa [Ppc.nop] using he.insn
      obtain ⟨j, rfl⟩ : ∃ j, i = f + entryOff m₀ f + j := ⟨i - (f + entryOff m₀ f), by omega⟩
      have hj : j < 4 := by omega
      have e1 := load_getElem s.mem (f + entryOff m₀ f) 4 j (by simpa using hj)
      have e2 := load_getElem m₀ (f + entryOff m₀ f) 4 j (by simpa using hj)
      rw [← e1, ← e2]
      simp only [h1]
    · exact absurd hc hs
  · exact hi.frame i ha

/-- Reverting the lower of two patches, applying and reverting a third one, reverting the rest. -/
def demoBack : List Request :=
  demoStack ++ [.apply demoWorld (.ok (demoRevert 1 libA)), .apply demoWorld (.ok (demoRevert 2 libA))]

theorem demo_stack_fit : ∀ r ∈ demoStack, Fits demoF demoSlot r := by
  intro r hr
  simp only [demoStack, List.mem_cons, List.not_mem_nil, or_false] at hr
  rcases hr with rfl | rfl
  · exact demo_fits _ _ _ _ _ (by simp [demoF]) (by simp)
  · exact demo_fits _ _ _ _ _ (by simp [demoF]) (by simp)

theorem demo_back_fit : ∀ r ∈ demoBack, Fits demoF demoSlot r := by
  intro r hr
  rcases List.mem_append.mp hr with hr | hr
  · exact demo_stack_fit r hr
  · simp only [List.mem_cons, List.not_mem_nil, or_false] at hr
    rcases hr with rfl | rfl <;> simp [Fits, demoRevert]

theorem demo_stack_run : ∃ s, serveAll demoT 10 (State.init demoMem) demoStack = some (s, [0, 0]) ∧ s.err = ENONE :=
  run_of_eval (by decide +kernel)

/-- Patch 1 is applied, no patch depends on it, and reverting it is accepted; afterwards 0x1000 goes to patch 2 and
0x2000 has its body back. -/
example : ∃ s s', serveAll demoT 10 (State.init demoMem) demoStack = some (s, [0, 0]) ∧
    serve demoT 10 s (.apply demoWorld (.ok (demoRevert 1 libA))) = some (s', 0) := by
  obtain ⟨s, h, he⟩ := demo_stack_run
  obtain ⟨s', h'⟩ := C162_revert_accepted demo_t demo_image 10 demoStack demo_stack_fit s _ h he demoWorld rfl
    (demoRevert 1 libA) rfl (by decide +kernel) (by decide +kernel)
  exact ⟨s, s', h, h'⟩

example : ((serveAll demoT 10 (State.init demoMem)
      (demoStack ++ [.apply demoWorld (.ok (demoRevert 1 libA))])).map fun p =>
        (p.2, p.1.err, callDest demoT 0 p.1.mem 0x1000, callDest demoT 8 p.1.mem 0x2000)) =
    some ([0, 0, 0], ENONE, some 0x700002, some 0x200c) := by decide +kernel

example : ∃ s s' , serveAll demoT 10 (State.init demoMem) demoStack = some (s, [0, 0]) ∧
    serve demoT 10 s (.apply demoWorld (.ok (demoRevert 1 libA))) = some (s', 0) ∧
    callDest demoT (entryOff demoMem 0x2000) s'.mem 0x2000 = some 0x200c := by
  have hd : ((serveAll demoT 10 (State.init demoMem) demoStack).bind fun p =>
      (serve demoT 10 p.1 (.apply demoWorld (.ok (demoRevert 1 libA)))).map fun q => (p.2, q.2, q.1.err)) =
      some ([0, 0], 0, ENONE) := by decide +kernel
  cases hs : serveAll demoT 10 (State.init demoMem) demoStack with
  | none => simp [hs] at hd
  | some p =>
    obtain ⟨s, as⟩ := p
    cases hs' : serve demoT 10 s (.apply demoWorld (.ok (demoRevert 1 libA))) with
    | none => simp [hs, hs'] at hd
    | some q =>
      obtain ⟨s', a⟩ := q
      simp only [hs, hs', Option.bind_some, Option.map_some, Option.some.injEq, Prod.mk.injEq] at hd
      obtain ⟨rfl, rfl, he⟩ := hd
      refine ⟨s, s', rfl, hs', ?_⟩
      rw [C162_revert_undoes_exactly demo_t demo_image 10 demoStack demo_stack_fit s _ hs demoWorld (demoRevert 1 libA) rfl
          s' hs' (Or.inl he) 0x2000 (Or.inr rfl)]
      decide +kernel

example : ∃ s s₁ s₂, serveAll demoT 10 (State.init demoMem) demoStack = some (s, [0, 0]) ∧
    serve demoT 10 s (.apply demoWorld (.ok (demoPatch 3 libA [0x1000, 0x2000] [[1]] []))) = some (s₁, 0) ∧
    serve demoT 10 s₁ (.apply demoWorld (.ok (demoRevert 3 libA))) = some (s₂, 0) ∧
    callDest demoT (entryOff demoMem 0x1000) s₂.mem 0x1000 = callDest demoT (entryOff demoMem 0x1000) s.mem 0x1000 := by
  have hd : ((serveAll demoT 10 (State.init demoMem) demoStack).bind fun p =>
      (serve demoT 10 p.1 (.apply demoWorld (.ok (demoPatch 3 libA [0x1000, 0x2000] [[1]] [])))).bind fun q =>
      (serve demoT 10 q.1 (.apply demoWorld (.ok (demoRevert 3 libA)))).map fun r => (p.2, p.1.err, q.2, r.2, r.1.err)) =
      some ([0, 0], ENONE, 0, 0, ENONE) := by decide +kernel
  cases hs : serveAll demoT 10 (State.init demoMem) demoStack with
  | none => simp [hs] at hd
  | some p =>
    obtain ⟨s, as⟩ := p
    cases hs' : serve demoT 10 s (.apply demoWorld (.ok (demoPatch 3 libA [0x1000, 0x2000] [[1]] []))) with
    | none => simp [hs, hs'] at hd
    | some q =>
      obtain ⟨s₁, a⟩ := q
      cases hs'' : serve demoT 10 s₁ (.apply demoWorld (.ok (demoRevert 3 libA))) with
      | none => simp [hs, hs', hs''] at hd
      | some r =>
        obtain ⟨s₂, b⟩ := r
        simp only [hs, hs', hs'', Option.bind_some, Option.map_some, Option.some.injEq, Prod.mk.injEq] at hd
        obtain ⟨rfl, he, rfl, rfl, he'⟩ := hd
        exact ⟨s, s₁, s₂, rfl, hs', hs'', C162_apply_then_revert demo_t demo_image 10 demoStack demo_stack_fit s _ hs
          demoWorld demoWorld (demoPatch 3 libA [0x1000, 0x2000] [[1]] []) (demoRevert 3 libA) rfl rfl rfl
          (demo_fits _ _ _ _ _ (by simp [demoF]) (by simp)) s₁ s₂ hs' hs'' (Or.inl he') (Or.inl he) 0x1000 (Or.inl rfl)⟩

/-- After both patches are reverted, the NOPs at 0x1000 and 0x2008 are back, the stubs in front are not empty. -/
example : ∃ s, serveAll demoT 10 (State.init demoMem) demoBack = some (s, [0, 0, 0, 0]) ∧
    s.mem 0x1003 = 0x60 ∧ s.mem 0x200b = 0x60 := by
  obtain ⟨s, h, he⟩ : ∃ s, serveAll demoT 10 (State.init demoMem) demoBack = some (s, [0, 0, 0, 0]) ∧ s.err = ENONE :=
    run_of_eval (by decide +kernel)
  have key := C162_all_reverted_code_restored demo_t demo_image 10 demoBack demo_back_fit s _ h (Or.inl he) (by decide +kernel)
  refine ⟨s, h, ?_, ?_⟩
  · rw [key 0x1003 (by rintro f (rfl | rfl) <;> omega) (by unfold demoSlot; omega)]; decide +kernel
  · rw [key 0x200b (by rintro f (rfl | rfl) <;> omega) (by unfold demoSlot; omega)]; decide +kernel

example : (serveAll demoT 10 (State.init demoMem) demoBack).map (fun p => p.1.mem 0xfcc) = some 0x77 := by decide +kernel

/-! ### C163 -/

/-- **C163** On POWER, after any history of requests from a fresh process, whether they were accepted, refused or led
to an internal error, every byte is what it was at the start, except in the 52 bytes in front of functions named in some
request, in their NOPs, and in the reference slots declared by some request. In particular the instructions
setting up the TOC pointer are never touched. -/
theorem C163_only_stubs_and_references (htl : t.length = 44) {m₀ : Mem} {F slot : Nat → Prop} (hI : Image m₀ F slot)
    (fuel : Nat) (reqs : List Request) (hfit : ∀ r ∈ reqs, Fits F slot r) (s : State) (as : List Nat)
    (h : serveAll t fuel (State.init m₀) reqs = some (s, as)) (i : Nat)
    (hp : ∀ f, namesFunction reqs f → ¬ inStub m₀ f i) (hr : ¬ declaresReference reqs i) :
    s.mem i = m₀ i := by
  have hI' : Image m₀ (fun f => F f ∧ namesFunction reqs f) (fun i => slot i ∧ declaresReference reqs i) :=
    ⟨fun f hf => hI.range f hf.1, fun f hf => hI.nop f hf.1, fun f hf => hI.start f hf.1,
     fun f g i hf hg => hI.disjoint f g i hf.1 hg.1, fun f i hf hi hs => hI.slots f i hf.1 hi hs.1⟩
  have hfit' : ∀ r ∈ reqs, Fits (fun f => F f ∧ namesFunction reqs f) (fun i => slot i ∧ declaresReference reqs i) r := by
    intro r hr
    have := hfit r hr
    cases r with
    | apply w m =>
      cases m with
      | error e => trivial
      | ok m =>
        intro ht
        obtain ⟨h1, h2⟩ := this ht
        refine ⟨?_, ?_⟩
        · intro u hu
          rcases h1 u hu with h0 | ⟨h0, h3⟩
          · exact Or.inl h0
          · exact Or.inr ⟨⟨h0, w, m, hr, ht, u, hu, rfl⟩, h3⟩
        · intro x hx so hso
          obtain ⟨h3, h4⟩ := h2 x hx so hso
          exact ⟨h3, fun i hi1 hi2 => ⟨h4 i hi1 hi2, w, m, so, hr, ht, hso, x, hx, hi1, hi2⟩⟩
    | revertAll w lib => trivial
    | check id => trivial
    | toggle => trivial
  refine (serveAll_inv htl hI' reqs hfit' _ _ _ _ (init_inv hI') h).frame i ?_
  rintro (⟨f, hf, hi⟩ | hi)
  · exact hp f hf.2 hi
  · exact hr hi.2

theorem demo_names (f : Nat) (h : namesFunction demoReqs f) : f = 0x1000 ∨ f = 0x2000 := by
  obtain ⟨w, m, hm, ht, u, hu, rfl⟩ := h
  simp only [demoReqs, List.mem_cons, List.not_mem_nil, or_false, Request.apply.injEq, Except.ok.injEq, reduceCtorEq,
    false_or] at hm
  rcases hm with ⟨rfl, rfl⟩ | ⟨rfl, rfl⟩ | ⟨rfl, rfl⟩ | ⟨rfl, rfl⟩ | ⟨rfl, rfl⟩ <;>
    simp [demoPatch, demoRevert] at hu ht <;> (try rcases hu with rfl | rfl) <;> (try subst hu) <;> simp [demoWorld]

/-- The first instruction of 0x2000 stays although the function is patched. -/
example : ∃ s as, serveAll demoT 10 (State.init demoMem) demoReqs = some (s, as) ∧ s.mem 0x2003 = 0x3c := by
  obtain ⟨s, h, -⟩ := demo_run
  obtain ⟨o1, o2⟩ := demo_off
  refine ⟨s, _, h, ?_⟩
  rw [C163_only_stubs_and_references demo_t demo_image 10 demoReqs demo_reqs_fit s _ h 0x2003 ?_ ?_]
  · decide +kernel
  · intro f hf
    rcases demo_names f hf with rfl | rfl <;> simp only [inStub, o1, o2] <;> omega
  · rintro ⟨w, m, so, hm, ht, hso, r, hr, h1, h2⟩
    have := (demo_reqs_fit _ hm ht).2 r hr so hso
    have := this.2 0x2003 h1 h2
    unfold demoSlot at this; omega

/-! ### C164 -/

theorem perform_refs {w so tb ti} (refs : List RefM)
    (hdis : refs.Pairwise fun a b => refAddr w so a + refSize a ≤ refAddr w so b ∨
      refAddr w so b + refSize b ≤ refAddr w so a) (m : Mem) :
    ∀ r ∈ refs, (perform m (refs.map fun r => Req.write (refAddr w so r) (refBytes tb ti r))).load
      (refAddr w so r) (refSize r) = refBytes tb ti r := by
  induction refs generalizing m with
  | nil => simp
  | cons x refs ih =>
    rw [List.pairwise_cons] at hdis
    intro r hr
    rw [List.map_cons]
    rcases List.mem_cons.mp hr with rfl | hr
    · have : (perform (m.store (refAddr w so r) (refBytes tb ti r))
          (refs.map fun r => Req.write (refAddr w so r) (refBytes tb ti r))).load (refAddr w so r) (refSize r) =
          (m.store (refAddr w so r) (refBytes tb ti r)).load (refAddr w so r) (refSize r) := by
        apply load_congr
        intro i h1 h2
        apply InsnQueue.perform_out
        intro q hq ht
        obtain ⟨y, hy, rfl⟩ := List.mem_map.mp hq
        simp only [touches, refBytes_length] at ht
        have := hdis.1 y hy
        omega
      rw [perform, this]
      have h2 := load_store (m := m) (a := refAddr w so r) (bytes := refBytes tb ti r)
      rw [refBytes_length] at h2
      exact h2
    · rw [perform]
      exact ih hdis.2 _ r hr

theorem references_of_inv (htl : t.length = 44) {m₀ : Mem} {F slot : Nat → Prop} (hI : Image m₀ F slot)
    (fuel : Nat) (s : State) (ps : List Patch) (hi : Inv t m₀ F slot s ps)
    (w : World) (m : Meta) (ht : m.type = 1) (hfm : Fits F slot (.apply w (.ok m)))
    (so : Nat) (hso : w.soBase = some so)
    (hdis : m.refs.Pairwise fun a b => refAddr w so a + refSize a ≤ refAddr w so b ∨
      refAddr w so b + refSize b ≤ refAddr w so a)
    (s' : State) (h' : serve t fuel s (.apply w (.ok m)) = some (s', 0)) (hh : healthy s'.err)
    (r : RefM) (hr : r ∈ m.refs) :
    if r.tls then
      leVal (s'.mem.load (refAddr w so r) 8) = w.tlsIdx (getBasename m.lib) % 2 ^ 64 ∧
      ∀ block, tlsGetAddr block (leVal (s'.mem.load (refAddr w so r + 8) 8)) = (block + r.targetOff) % 2 ^ 64
    else leVal (s'.mem.load (refAddr w so r) 8) = (w.libBase (getBasename m.lib) + r.targetOff) % 2 ^ 64 := by
  have key : s'.mem.load (refAddr w so r) (refSize r) =
      refBytes (w.libBase (getBasename m.lib)) (w.tlsIdx (getBasename m.lib)) r := by
    simp only [serve, Option.some.injEq, Prod.mk.injEq] at h'
    obtain ⟨rfl, h0⟩ := h'
    unfold applyPatch at h0 hh ⊢
    rw [gate_clean hi.clean] at h0 hh ⊢
    by_cases he : s.err ≠ ENONE
    · simp only [if_pos he] at h0; exact absurd h0 he
    simp only [if_neg he] at h0 hh ⊢
    have he' : s.err = ENONE := Decidable.not_not.mp he
    cases hb : w.busy with
    | true => simp [hb, EAGAIN] at h0
    | false =>
    simp only [hb, Bool.false_eq_true, if_false] at h0 hh ⊢
    have hg := hi.good (Or.inl he')
    generalize hl : loadPatch t w m s = p at *
    obtain ⟨s1, e⟩ := p
    simp only at h0 hh ⊢
    subst h0
    obtain ⟨ws, a1, -, -, -, so', hso', hws⟩ := loadPatch_apply_ok htl hI hfm ht hg hl
    rw [hso] at hso'
    injection hso' with hso'
    subst hso'
    obtain ⟨ws', -, heq, hs⟩ := settle_emits hi.clean a1
    rw [hs] at hh ⊢
    simp only at hh ⊢
    rw [heq (by rcases hh with h | h <;> rw [h] <;> decide), hws, perform_append]
    exact perform_refs m.refs hdis _ r hr
  cases htls : r.tls with
  | true =>
    simp only [refSize, refBytes, htls, if_true] at key ⊢
    rw [load_append s'.mem _ 8 8] at key
    obtain ⟨k1, k2⟩ := List.append_inj key (by simp)
    rw [k1, k2, leVal_le, leVal_le]
    refine ⟨rfl, fun block => ?_⟩
    unfold tlsGetAddr
    omega
  | false =>
    simp only [refSize, refBytes, htls, Bool.false_eq_true, if_false] at key ⊢
    rw [key, leVal_le]

/-- **C164** On POWER, after a successful apply in a reachable process, every data reference the patch declares
holds the run-time address of the target datum; a thread-local one holds the library's TLS module id followed by
an offset with which `__tls_get_addr` gives the variable's place in the thread's block of that module. -/
theorem C164_references_point_at_target (htl : t.length = 44) {m₀ : Mem} {F slot : Nat → Prop} (hI : Image m₀ F slot)
    (fuel : Nat) (reqs : List Request) (hfit : ∀ r ∈ reqs, Fits F slot r) (s : State) (as : List Nat)
    (h : serveAll t fuel (State.init m₀) reqs = some (s, as))
    (w : World) (m : Meta) (ht : m.type = 1) (hfm : Fits F slot (.apply w (.ok m)))
    (so : Nat) (hso : w.soBase = some so)
    (hdis : m.refs.Pairwise fun a b => refAddr w so a + refSize a ≤ refAddr w so b ∨
      refAddr w so b + refSize b ≤ refAddr w so a)
    (s' : State) (h' : serve t fuel s (.apply w (.ok m)) = some (s', 0)) (hh : healthy s'.err)
    (r : RefM) (hr : r ∈ m.refs) :
    if r.tls then
      leVal (s'.mem.load (refAddr w so r) 8) = w.tlsIdx (getBasename m.lib) % 2 ^ 64 ∧
      ∀ block, tlsGetAddr block (leVal (s'.mem.load (refAddr w so r + 8) 8)) = (block + r.targetOff) % 2 ^ 64
    else leVal (s'.mem.load (refAddr w so r) 8) = (w.libBase (getBasename m.lib) + r.targetOff) % 2 ^ 64 :=
  references_of_inv htl hI fuel s _ (serveAll_inv htl hI reqs hfit _ _ _ _ (init_inv hI) h) w m ht hfm so hso hdis s' h' hh r hr

/-- A patch with a thread-local reference to the variable 0x10 bytes into the block of module 3. -/
def tlsPatch : Meta := demoPatch 1 libA [0x1000, 0x2000] []
  [{ targetName := [1], refName := [2], targetOff := 0x10, patchOff := 0, tls := true }]

def tlsWorld : World := { demoWorld with newSym := fun n => if n = [2] then 0x5000 else 0x700001 }

example : ∃ s', serve demoT 10 (State.init demoMem) (.apply tlsWorld (.ok tlsPatch)) = some (s', 0) ∧ s'.err = ENONE ∧
    leVal (s'.mem.load 0x5000 8) = 3 ∧ tlsGetAddr 0x12340000 (leVal (s'.mem.load 0x5008 8)) = 0x12340010 := by
  have hd : (serve demoT 10 (State.init demoMem) (.apply tlsWorld (.ok tlsPatch))).map
      (fun p => (p.2, p.1.err)) = some (0, ENONE) := by decide +kernel
  cases hs : serve demoT 10 (State.init demoMem) (.apply tlsWorld (.ok tlsPatch)) with
  | none => simp [hs] at hd
  | some p =>
    obtain ⟨s', a⟩ := p
    simp only [hs, Option.map_some, Option.some.injEq, Prod.mk.injEq] at hd
    obtain ⟨rfl, he⟩ := hd
    refine ⟨s', rfl, he, ?_⟩
    have hf : Fits demoF demoSlot (.apply tlsWorld (.ok tlsPatch)) := by
      intro _
      refine ⟨?_, ?_⟩
      · intro u hu
        simp only [tlsPatch, demoPatch, List.map_cons, List.map_nil, List.mem_cons, List.not_mem_nil, or_false] at hu
        rcases hu with rfl | rfl <;> simp [tlsWorld, demoWorld, demoF]
      · intro r hr so hso
        simp only [tlsPatch, demoPatch, List.mem_singleton] at hr
        subst hr
        simp [refAddr, refSize, demoSlot, tlsWorld]
        omega
    have := C164_references_point_at_target demo_t demo_image 10 [] (by simp) (State.init demoMem) [] rfl tlsWorld
      tlsPatch rfl hf 0x5000 rfl (by simp [tlsPatch, demoPatch]) s' hs (Or.inl he)
      (tlsPatch.refs.head (by decide)) (by decide)
    exact ⟨this.1, this.2 _⟩

/-! ### C165 -/

theorem applyUnits_error {w lib id} (us : List UnitM) (s : State) (h : ∃ res, resolveUnits w lib us = some res) :
    (applyUnits t w lib id us s).2 = 0 ∨ (applyUnits t w lib id us s).2 = ENOPATCHABLE := by
  induction us generalizing s with
  | nil => exact Or.inl rfl
  | cons u us ih =>
    obtain ⟨res, h⟩ := h
    simp only [resolveUnits] at h
    split at h
    · simp at h
    rename_i h1
    split at h
    · simp at h
    rename_i h2
    simp only [applyUnits, if_neg h1, if_neg h2]
    have hp : ∀ s : State, ∀ a b, (patchAddr t s a b true).2 = 0 ∨ (patchAddr t s a b true).2 = ENOPATCHABLE := by
      intro s a b
      unfold patchAddr Ppc.patchAddr
      cases Ppc.getBranchOffset s.mem a <;> simp
    split
    · rename_i hgt
      rcases hp _ _ _ with h0 | h0
      · rw [h0] at hgt; exact absurd hgt (Nat.lt_irrefl 0)
      · exact Or.inr h0
    · apply ih
      cases hr : resolveUnits w lib us with
      | none => simp [hr] at h
      | some r => exact ⟨r, rfl⟩

theorem applyRefs_error {w tb ti so} (refs : List RefM) (s : State) :
    (applyRefs w tb ti so refs s).2 = 0 ∨ (applyRefs w tb ti so refs s).2 = ENONEWFUNC := by
  induction refs generalizing s with
  | nil => exact Or.inl rfl
  | cons r rs ih =>
    unfold applyRefs
    simp only
    by_cases hc : r.patchOff = 0 ∧ (if r.patchOff = 0 then w.newSym r.refName else (so + r.patchOff) % 2 ^ 64) = 0
    · rw [if_pos hc]; exact Or.inr rfl
    · rw [if_neg hc]; exact ih _

/-- **C165**, the part that is true: on POWER, an apply that is refused with any answer other than the four named
leaves the process exactly as it was.  Missing: these four; for ENOPATCHABLE the claim is false whenever the
refused function is the first, see `C165_refused_overwrites`. -/
theorem C165_refused_without_effect_partial (fuel : Nat) (s : State) (hi : Idle s) (w : World)
    (m : Except Err Meta) (s' : State) (a : Nat) (h : serve t fuel s (.apply w m) = some (s', a)) (ha : a ≠ 0)
    (h1 : a ≠ ENOPATCHABLE) (h2 : a ≠ ENOADDRESS) (h3 : a ≠ EUNKNOWN) (h4 : a ≠ ENONEWFUNC) : s' = s := by
  simp only [serve, Option.some.injEq, Prod.mk.injEq] at h
  obtain ⟨rfl, rfl⟩ := h
  unfold applyPatch at *
  rw [gate_clean hi] at *
  by_cases he : s.err ≠ ENONE
  · simp only [if_pos he]; exact settle_clean hi
  simp only [if_neg he] at *
  cases hb : w.busy with
  | true => simp only [if_true]; exact settle_clean hi
  | false =>
  simp only [hb, Bool.false_eq_true, if_false] at *
  cases m with
  | error e => exact settle_clean hi
  | ok m =>
  simp only at *
  generalize hl : loadPatch t w m s = p at *
  obtain ⟨s1, e⟩ := p
  simp only at *
  rcases loadPatch_refused hl ha with rfl | ⟨ht, s0, s2, hu, hall, rfl⟩
  · exact settle_clean hi
  · exfalso
    have hres : ∃ res, resolveUnits w m.lib m.units = some res := by
      unfold stateUpdate at hu
      cases hr : resolveUnits w m.lib m.units with
      | none => simp [hr] at hu
      | some r => exact ⟨r, rfl⟩
    have hu2 := applyUnits_error (t := t) (id := m.id) m.units { s0 with univ := s0.univ + 1 } hres
    unfold applyAllUnits at hall
    generalize hau : applyUnits t w m.lib m.id m.units { s0 with univ := s0.univ + 1 } = q at hall hu2
    obtain ⟨s3, e3⟩ := q
    simp only at hall hu2
    by_cases he3 : e3 ≠ 0
    · rw [if_pos he3] at hall
      rcases hu2 with h0 | h0
      · exact he3 h0
      · exact h1 ((Prod.mk.inj hall).2.symm.trans h0)
    rw [if_neg he3] at hall
    split at hall
    · exact h2 (Prod.mk.inj hall).2.symm
    cases hso : w.soBase with
    | none => rw [hso] at hall; exact h3 (Prod.mk.inj hall).2.symm
    | some so =>
      rw [hso] at hall
      simp only at hall
      split at hall
      · exact h2 (Prod.mk.inj hall).2.symm
      · rcases applyRefs_error (w := w) (tb := w.libBase (getBasename m.lib)) (ti := w.tlsIdx (getBasename m.lib))
          (so := so) m.refs s3 with h0 | h0
        · rw [hall] at h0; exact ha h0
        · rw [hall] at h0; exact h4 h0

example : ∃ s, serveAll demoT 10 (State.init demoMem) demoStack = some (s, [0, 0]) ∧
    ∀ s' a, serve demoT 10 s (.apply noDlopen (.ok (demoPatch 3 libA [0x2000] [] []))) = some (s', a) → a = EDLOPEN →
      s' = s := by
  obtain ⟨s, h, he⟩ := demo_stack_run
  refine ⟨s, h, fun s' a h' ha => ?_⟩
  have hi := (serveAll_inv demo_t demo_image demoStack demo_stack_fit _ _ _ _ (init_inv demo_image) h).clean
  subst ha
  exact C165_refused_without_effect_partial 10 s hi _ _ s' _ h' (by decide) (by decide) (by decide) (by decide) (by decide)

example : ((serveAll demoT 10 (State.init demoMem) demoStack).bind fun p =>
    (serve demoT 10 p.1 (.apply noDlopen (.ok (demoPatch 3 libA [0x2000] [] [])))).map (fun q => q.2)) = some EDLOPEN := by
  decide +kernel

theorem memwrite_idle {s : State} (hi : Idle s) (a : Nat) (bs : List UInt8) (hb : bs.length = 52) :
    (memwrite s a bs).err = s.err := by
  have hsz : (Req.write a bs).insnSize = 72 := by
    unfold InsnQueue.Req.insnSize
    simp only [hb]
    decide
  unfold memwrite InsnQueue.insert InsnQueue.insert?
  simp only
  rw [if_neg (by rw [hsz]; decide), if_neg (by rw [hsz, hi.size]; decide)]

/-- Negation of **C165**: a patch whose function has no NOP where it must be is refused with ENOPATCHABLE, and yet the
52 bytes in front of that function, whatever they belong to, have been overwritten. -/
theorem C165_refused_overwrites (htl : t.length = 44) (fuel : Nat) (s : State) (hi : Idle s) (he : s.err = ENONE) (w : World)
    (hb : w.busy = false) (hbi : w.buildIdOk = true) (hdl : w.dlopenOk = true) (m : Meta) (ht : m.type = 1) (hdeps : m.deps = [])
    (hnew : ∀ p ∈ s.patches, p.id ≠ m.id) (u : UnitM) (hu : m.units = [u]) (f g : Nat)
    (hf : w.oldSym (getBasename m.lib) u.oldName u.oldAddr = f) (hf0 : 52 ≤ f) (hf1 : f < 2 ^ 64)
    (hg : w.newSym u.newName = g) (hg0 : g ≠ 0)
    (hbad : ∀ off, off = 0 ∨ off = 8 → s.mem.load (f + off) 4 ≠ [0x00, 0x00, 0x00, 0x60] ∧
      Ppc.Spec.step s.mem (f + off) ≠ some ((f : Int) - 52)) :
    ∃ s', serve t fuel s (.apply w (.ok m)) = some (s', ENOPATCHABLE) ∧ s'.mem.load (f - 52) 52 = t ++ le 8 g := by
  have hnone : Ppc.getBranchOffset s.mem f = none := by
    have key : ∀ off, off = 0 ∨ off = 8 →
        ¬ (s.mem.load (f + off) 4 = Ppc.nop ∨ s.mem.load (f + off) 4 = Ppc.branchBytes off) := by
      rintro off ho (h | h)
      · exact (hbad off ho).1 h
      · apply (hbad off ho).2
        unfold Ppc.Spec.step
        rw [h, show ([0x00, 0x00, 0x00, 0x60] : List UInt8) = Ppc.nop from rfl, if_neg (Ppc.branch_ne_nop off ho),
          Ppc.branchBytes_word off (by omega),
          Ppc.C46_branch_decodes _ (by unfold Ppc.withOffset Ppc.preLen; omega) (by unfold Ppc.withOffset Ppc.preLen; omega)
            (by unfold Ppc.withOffset Ppc.preLen; omega)]
        simp only [Option.some.injEq]
        unfold Ppc.withOffset Ppc.preLen; omega
    unfold Ppc.getBranchOffset
    rw [if_neg (by simpa using key 0 (Or.inl rfl)), if_neg (key 8 (Or.inr rfl))]
  have hf' : f ≠ 0 := by omega
  have hsan : sanity w m s = 0 := by
    have : (getApplied s m.id).isSome = false := by
      unfold getApplied
      rw [Option.isSome_eq_false_iff, Option.isNone_iff_eq_none, List.find?_eq_none]
      intro p hp
      simpa using hnew p hp
    simp [sanity, hbi, hdeps, depsOk, this]
  have hsu : ∃ s0, stateUpdate w m s = some s0 := by
    unfold stateUpdate
    rw [hu]
    simp only [resolveUnits, hf, hg, if_neg hf', if_neg hg0, Option.map_some]
    exact ⟨_, rfl⟩
  obtain ⟨s0, hsu⟩ := hsu
  obtain ⟨f1, f2, f3, -⟩ := stateUpdate_fields hsu
  generalize hd : ({ univ := s0.univ + 1, target := g, id := m.id, active := true } : Detour) = d
  have ha := addDetour_ok { s0 with univ := s0.univ + 1 } f d
  generalize hs1 : addDetour { s0 with univ := s0.univ + 1 } f d = s1 at ha
  have hm1 : s1.mem = s.mem := by rw [ha.mem]; exact f2
  have hq1 : s1.q = s.q := by rw [ha.q]; exact f1
  have he1 : s1.err = s.err := by rw [ha.err]; exact f3
  have hi1 : Idle s1 := ⟨by rw [hq1]; exact hi.num, by rw [hq1]; exact hi.size, by rw [hq1]; exact hi.ver⟩
  have hau : applyAllUnits t w m s0 = (memwrite s1 (f - 52) (t ++ le 8 g), ENOPATCHABLE) := by
    unfold applyAllUnits
    rw [hu]
    simp only [applyUnits, hf, hg, if_neg hf', if_neg hg0, hd, hs1]
    have hpa : patchAddr t s1 f g true = (memwrite s1 (f - 52) (t ++ le 8 g), ENOPATCHABLE) := by
      unfold patchAddr Ppc.patchAddr
      rw [hm1, hnone]
      rfl
    rw [hpa]
    simp only
    rw [if_pos (show ENOPATCHABLE > 0 by decide)]
    simp only
    rw [if_pos (by decide)]
  have hl : loadPatch t w m s = ({ memwrite s1 (f - 52) (t ++ le 8 g) with err := EUNKNOWN }, ENOPATCHABLE) := by
    unfold loadPatch
    simp only [ht, hsan, hdl, hsu, hau]
    rfl
  refine ⟨settle { memwrite s1 (f - 52) (t ++ le 8 g) with err := EUNKNOWN }, ?_, ?_⟩
  · simp only [serve]
    unfold applyPatch
    rw [gate_clean hi]
    simp only [he, hb, ne_eq, not_true_eq_false, if_false, Bool.false_eq_true, hl]
  · have hem := memwrite_emits s1 (a := f - 52) (bs := t ++ le 8 g) ⟨by omega, by simp [htl]⟩
    obtain ⟨ws', -, h2, h3⟩ := hem.holds [] hi1.holds
    have hne : (memwrite s1 (f - 52) (t ++ le 8 g)).err ≠ EINSNQ := by
      rw [memwrite_idle hi1 _ _ (by simp [htl]), he1, he]; decide
    have h3 := h3 hne
    subst h3
    rw [settle_holds (s := { memwrite s1 (f - 52) (t ++ le 8 g) with err := EUNKNOWN }) (by simpa using h2)
      (by simp only [hem.ver]; exact hi1.ver)]
    simp only [perform]
    have := load_store (m := (memwrite s1 (f - 52) (t ++ le 8 g)).mem) (a := f - 52) (bytes := t ++ le 8 g)
    rw [show (t ++ le 8 g).length = 52 by simp [htl]] at this
    exact this

/-- A function at 0x3000 that was not built to be livepatchable; the bytes in front of it belong to some other one. -/
def badMem : Mem := fun i => if 0x2f00 ≤ i ∧ i < 0x3100 then 0x7c else 0

example : ∃ s', serve demoT 10 (State.init badMem) (.apply demoWorld (.ok (demoPatch 1 libA [0x3000] [] []))) =
    some (s', ENOPATCHABLE) ∧ s'.mem.load (0x3000 - 52) 52 = demoT ++ le 8 0x700001 :=
  C165_refused_overwrites demo_t 10 (State.init badMem) ⟨rfl, rfl, Nat.le_refl _⟩ rfl demoWorld rfl rfl rfl
    (demoPatch 1 libA [0x3000] [] []) rfl rfl (by simp [State.init]) _ rfl 0x3000 0x700001 rfl (by decide) (by decide) rfl
    (by decide) (by rintro off (rfl | rfl) <;> decide +kernel)

end Verif.Power
