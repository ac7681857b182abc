import Verif.PowerCut.Props

/-! More on C229: a request on POWER that is cut between the two writes for one function. -/

namespace Verif.Power.Cut

open Verif.Runtime hiding Good Inv area loadPatch_apply_ok
open Verif.Cut (Md Proc Env Item items fill Pc fatal Event)
open Verif.Runtime.Spec (Idle replacement trackAll patchOf)
open Power.Spec (callDest entryOff body Image Fits)
open Verif.Cut.Spec
open Verif.InsnQueue (Req Holds touches Queue)
open Verif.InsnQueue.Spec (perform)

variable {tm : List UInt8}

/-- Executing the queue with one more write. -/
theorem settle_memwrite {s : State} {rs a bs} (h : Holds s.q rs) (hv : s.q.version ≤ InsnQueue.currVersion)
    (hval : Valid (.write a bs)) (he : (memwrite s a bs).err = ENONE) :
    (settle (memwrite s a bs)).mem = (settle s).mem.store a bs ∧ s.err = ENONE := by
  have hem := memwrite_emits s hval
  obtain ⟨ws, -, hh, hw⟩ := hem.holds rs h
  have := hw (by rw [he]; decide)
  subst this
  refine ⟨?_, ?_⟩
  · rw [settle_holds hh (by rw [hem.ver]; exact hv), settle_holds h hv]
    simp only [perform_append, hem.mem]
    rfl
  · rcases hem.err with h | h
    · rw [← h]; exact he
    · rw [h] at he; exact absurd he (by decide)

/-- The stub alone. -/
theorem stub_entry {m : Mem} {off f x} (g : Nat) (ht : tm.length = 44) (hf : 52 ≤ f) (h : Entry tm m off f x) :
    Entry tm (m.store (f - 52) (tm ++ le 8 g)) off f (x.map fun _ => g) := by
  have hl : (tm ++ le 8 g).length = 52 := by simp [ht]
  refine ⟨h.offs, fun ho => ?_, ?_, fun g' hg => ?_⟩
  · rw [load_store_out (by omega)]; exact h.start ho
  · rw [load_store_out (by omega), h.insn]; cases x <;> rfl
  · cases x with
    | none => simp at hg
    | some y =>
      simp only [Option.map_some, Option.some.injEq] at hg
      subst hg
      have h1 := load_store (m := m) (a := f - 52) (bytes := tm ++ le 8 g)
      rw [hl] at h1
      exact h1

/-- The stub of another function. -/
theorem other_entry {m : Mem} {off off' f f' x} (g : Nat) (ht : tm.length = 44) (hf : 52 ≤ f) (hf' : 52 ≤ f')
    (hd : ∀ i, pad off f i → pad off' f' i → False) (h : Entry tm m off f x) :
    Entry tm (m.store (f' - 52) (tm ++ le 8 g)) off f x := by
  have hl : (tm ++ le 8 g).length = 52 := by simp [ht]
  refine h.congr hf fun i hi => (store_out ?_).symm
  have : ¬ (f' - 52 ≤ i ∧ i < f') := fun hc => hd i hi ⟨hc.1, by omega⟩
  omega

/-- The functions replaced so far, in the code. -/
theorem half_good (htl : tm.length = 44) {m₀ : Mem} {F slot : Nat → Prop} (hI : Image m₀ F slot) {fuel : Nat}
    {reqs : List Request} (hfit : ∀ r ∈ reqs, Fits F slot r) {s : State} {as : List Nat}
    (h : serveAll tm fuel (State.init m₀) reqs = some (s, as)) (he : s.err = ENONE) {v : Env} (hv : ready v) {m : Meta}
    (hm : Fits F slot (.apply v.w (.ok m))) (h1 : m.type = 1) (hs : sanity v.w m s = 0) {done todo : List UnitM}
    (hd : m.units = done ++ todo) {x : Applied} {t : State}
    (ha : applyUnits tm v.w m.lib m.id done (begun s x) = (t, 0)) (herr : t.err = ENONE) :
    ∃ s', Good tm m₀ F s' (settle t).mem ({ patchOf v.w m with
          repl := (patchOf v.w m).repl.take (m.units.length - todo.length) } :: trackAll [] reqs as) := by
  have hinv := serveAll_inv htl hI reqs hfit _ _ _ _ (init_inv hI) h
  have hc : Calm ⟨s, none, false⟩ := ⟨hinv.clean, he, rfl, rfl⟩
  obtain ⟨X, hsh⟩ := shorter (p := ⟨s, none, false⟩) hv hc h1 hs ha
  generalize hw : ({ v.w with libBase := fun _ => 0, soBase := some 1, buildIdOk := true, dlopenOk := true } : World) = w' at hsh
  have hserve : serve tm fuel s (.apply w' (.ok { m with units := done, refs := [] })) =
      some (settle { t with patches := X }, 0) := by
    simp only [serve]
    simp only at hsh
    rw [hsh]
  have hall := Crew.serveAll_snoc _ h hserve
  have hfit' : ∀ r ∈ reqs ++ [.apply w' (.ok { m with units := done, refs := [] })], Fits F slot r := by
    intro r hr
    rcases List.mem_append.mp hr with hr | hr
    · exact hfit r hr
    · rw [List.mem_singleton] at hr
      subst hr hw
      intro _
      refine ⟨?_, by simp⟩
      intro u hu
      exact (hm h1).1 u (by rw [hd]; exact List.mem_append_left _ hu)
  have hgood := (serveAll_inv htl hI _ hfit' _ _ _ _ (init_inv hI) hall).good (Or.inl (by rw [settle_setPatches]; exact herr))
  have htr : ∀ (ps : List Runtime.Spec.Patch) (rs : List Request) (as : List Nat) r a, rs.length = as.length →
      trackAll ps (rs ++ [r]) (as ++ [a]) = Runtime.Spec.track (trackAll ps rs as) r a := by
    intro ps rs
    induction rs generalizing ps with
    | nil =>
      intro as r a hl
      cases as with
      | nil => rfl
      | cons => simp at hl
    | cons r0 rs ih =>
      intro as r a hl
      cases as with
      | nil => simp at hl
      | cons a0 as => exact ih _ as r a (by simpa using hl)
  have hlen : reqs.length = as.length := by
    have : ∀ (rs : List Request) (s t : State) (as : List Nat), serveAll tm fuel s rs = some (t, as) → rs.length = as.length := by
      intro rs
      induction rs with
      | nil =>
        intro s t as h
        simp only [serveAll, Option.some.injEq, Prod.mk.injEq] at h
        rw [← h.2]; rfl
      | cons r rs ih =>
        intro s t as h
        simp only [serveAll] at h
        cases hr : serve tm fuel s r with
        | none => rw [hr] at h; simp at h
        | some x =>
          obtain ⟨s', a⟩ := x
          rw [hr] at h
          simp only at h
          cases hr' : serveAll tm fuel s' rs with
          | none => rw [hr'] at h; simp at h
          | some y =>
            obtain ⟨t', as'⟩ := y
            rw [hr'] at h
            simp only [Option.map_some, Option.some.injEq, Prod.mk.injEq] at h
            rw [← h.2, List.length_cons, List.length_cons, ih _ _ _ hr']
    exact this _ _ _ _ h
  have htrack : Runtime.Spec.track (trackAll [] reqs as) (.apply w' (.ok { m with units := done, refs := [] })) 0 =
      { patchOf v.w m with repl := (patchOf v.w m).repl.take (m.units.length - todo.length) } :: trackAll [] reqs as := by
    simp only [Runtime.Spec.track, if_pos h1, List.cons.injEq, and_true]
    subst hw
    unfold patchOf
    simp only [hd, List.map_append, List.length_append, Nat.add_sub_cancel]
    rw [List.take_left' (by simp)]
  rw [htr _ _ _ _ _ hlen, htrack] at hgood
  exact ⟨_, hgood⟩

/-- **C229** (part) Each single function is redirected wholly or not at all: if a request is cut inside `ulp_patch_addr`,
with the stub of the function written and the branch to it not, then calls of a function that was not redirected before run
its body as before, and those of one that was go to its new replacement; all other functions are as when cut before it. -/
theorem C229_between_writes_partial (htl : tm.length = 44) {m₀ : Mem} {F slot : Nat → Prop} (hI : Image m₀ F slot)
    {fuel : Nat} {reqs : List Request} (hfit : ∀ r ∈ reqs, Fits F slot r) {s : State} {as : List Nat}
    (h : serveAll tm fuel (State.init m₀) reqs = some (s, as)) (he : s.err = ENONE) {v : Env} (hv : ready v) {m : Meta}
    (hm : Fits F slot (.apply v.w (.ok m))) {k : Nat} {old new : Nat} {todo : List UnitM}
    (hk : (steps tm v (.ok m) k (⟨s, none, false⟩, .gate)).2 = .entry old new todo) {s' : State}
    (hl : leaveBetween tm v (.ok m) k ⟨s, none, false⟩ = some s') (herr : s'.err = ENONE) (f : Nat) (hf : F f)
    (before : Option Nat)
    (hb : before = replacement ({ patchOf v.w m with
          repl := (patchOf v.w m).repl.take (m.units.length - (todo.length + 1)) } :: trackAll [] reqs as) f) :
    callDest tm (entryOff m₀ f) s'.mem f = match before with
      | none => some (body m₀ f)
      | some g => some (if f = old then new else g) := by
  have hinv := serveAll_inv htl hI reqs hfit _ _ _ _ (init_inv hI) h
  have hc : Calm ⟨s, none, false⟩ := ⟨hinv.clean, he, rfl, rfl⟩
  have ht := Cut.track (tm := tm) (m := m) hc hv k
  unfold leaveBetween at hl
  generalize steps tm v (.ok m) k (⟨s, none, false⟩, .gate) = c at hk ht hl
  obtain ⟨q, pc⟩ := c
  simp only at hk
  subst hk
  simp only [Option.some.injEq] at hl
  subst hl
  simp only [Track] at ht
  obtain ⟨⟨h1, hs⟩, -, -, x, hx, done, u, t, hd, ha, ho, hn, ho0, hn0, hst⟩ := ht
  have hfu := fits_units hm h1
  have hgs := hinv.good (Or.inl he)
  have hu : F old ∧ new < 2 ^ 64 := by
    rcases (hm h1).1 u (by rw [hd]; simp) with h | h
    · rw [← ho] at h; exact absurd h ho0
    · rw [← ho, ← hn] at h; exact h
  have hem : EmitsIn (fun _ => True) (begun s x) t := by
    have := applyUnits_in (w := v.w) (lib := m.lib) (id := m.id) (A := fun _ => True) (e0 := entryOff m₀) htl done
      (begun s x) (fun r hr => by
        have hr' : r ∈ resolved v.w m.lib m.units := by
          unfold resolved at hr ⊢
          rw [hd, List.map_append]; exact List.mem_append_left _ hr
        exact (hfu r hr').imp id fun h => ⟨(hI.range _ h.1).1, (hI.range _ h.1).2, hgs.ready r.1 h.1⟩)
      (fun _ _ _ _ _ => trivial)
    rw [ha] at this
    exact this
  obtain ⟨ws, hem, -⟩ := hem
  obtain ⟨ws', -, hh, -⟩ := hem.holds [] hinv.clean.holds
  have had := addDetour_ok t old { univ := t.univ, target := new, id := m.id, active := true }
  rw [← hst] at had
  have hr := hI.range old hu.1
  have hplen : (Ppc.prologue tm new).length = 52 := by simp [Ppc.prologue, htl]
  have hval : Valid (.write (old - Ppc.preLen) (Ppc.prologue tm new)) :=
    ⟨by simp only [Ppc.preLen]; omega, by rw [hplen]; decide⟩
  have hver : t.q.version ≤ InsnQueue.currVersion := by rw [hem.ver]; exact hinv.clean.ver
  obtain ⟨hmem, herr'⟩ := settle_memwrite (s := q.st) (rs := ws') (by rw [had.q]; simpa using hh) (by rw [had.q]; exact hver)
    hval herr
  have hq : (settle q.st).mem = (settle t).mem := by
    unfold settle
    simp only [had.q, had.mem]
  rw [hmem, hq]
  obtain ⟨s1, hg⟩ := half_good (todo := u :: todo) htl hI hfit h he hv hm h1 hs hd ha (by rw [← had.err]; exact herr')
  rw [List.length_cons] at hg
  have hent := hg.entries f hf
  have htop := hg.top f
  rw [htop, ← hb] at hent
  have hrf := hI.range f hf
  by_cases hfo : f = old
  · subst hfo
    have := stub_entry new htl hrf.1 hent
    cases before with
    | none => exact callDest_plain this
    | some g =>
      simp only [if_true]
      exact callDest_redirected htl hrf.1 hu.2 this
  · have := other_entry (off' := entryOff m₀ old) (f' := old) new htl hrf.1 hr.1
      (fun i a b => hfo (image_pads hI f old i hf hu.1 a b)) hent
    cases before with
    | none => exact callDest_plain this
    | some g =>
      simp only [if_neg hfo]
      rw [← htop] at hb
      obtain ⟨d, hdm, hdt⟩ := top_mem hb.symm
      exact callDest_redirected htl hrf.1 (by rw [← hdt]; exact hg.targets f d hdm) this

/-! A patch for two functions, cut inside the second one's `ulp_patch_addr`; and the same function once more, after a patch. -/

theorem demo_first_fits : Fits demoF demoSlot (.apply demoEnv.w (.ok demoFirst)) := by
  refine demo_fits _ _ _ _ _ (by simp [demoF]) ?_
  intro r hr
  simp only [demoRefs, List.mem_singleton] at hr
  subst hr
  simp [Runtime.Spec.refAddr, Runtime.Spec.refSize, demoSlot]
  omega

theorem demo_between : ∃ s', leaveBetween demoT demoEnv (.ok demoFirst) 21 demoProc = some s' ∧ s'.err = ENONE :=
  ⟨_, rfl, by decide +kernel⟩

-- C229_between_writes_partial: the first function is redirected, the second is not
example : ∃ s', leaveBetween demoT demoEnv (.ok demoFirst) 21 demoProc = some s' ∧
    callDest demoT 0 s'.mem 0x1000 = some 0x700001 ∧ callDest demoT 8 s'.mem 0x2000 = some 0x200c := by
  obtain ⟨s', hl, he⟩ := demo_between
  obtain ⟨o1, o2⟩ := demo_off
  have h := C229_between_writes_partial demo_t demo_image (fuel := 1) (reqs := []) (by simp) (s := State.init demoMem)
    (as := []) rfl rfl demo_ready demo_first_fits (k := 21) (old := 0x2000) (new := 0x700001) (todo := []) rfl hl he
  have h1 := h 0x1000 (Or.inl rfl) (some 0x700001) (by decide +kernel)
  have h2 := h 0x2000 (Or.inr rfl) none (by decide +kernel)
  rw [o1] at h1
  rw [o2] at h2
  refine ⟨s', hl, h1.trans (by decide), h2.trans ?_⟩
  unfold body
  rw [o2]

-- the first function is redirected already, by the patch in force: its stub alone brings the new replacement
example : ((serveAll demoT 1 (State.init demoMem) [.apply demoEnv.w (.ok demoFirst)]).bind fun p =>
      (leaveBetween demoT demoEnv (.ok demoSecond) 16 ⟨p.1, none, false⟩).map fun s' =>
        (p.2, s'.err, callDest demoT 0 s'.mem 0x1000, callDest demoT 8 s'.mem 0x2000)) =
    some ([0], ENONE, some 0x700002, some 0x700001) := by
  decide +kernel

end Verif.Power.Cut
