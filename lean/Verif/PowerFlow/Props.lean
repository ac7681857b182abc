import Verif.PowerFlow.Lemmas

/-!
C205–C207: from the description to the process, on POWER.
-/

namespace Verif.PowerFlow

open Verif.Dsc.Spec (Desc Entry funcs refs)
open Verif.Metadata.Spec (All₂)
open Verif.Runtime (Meta UnitM RefM World State)
open Verif.Runtime.Spec (Patch healthy replacement track refAddr refSize)
open Verif.Power.Spec (Image callDest entryOff body tlsGetAddr)
open Verif.Flow (Bytes Proc Act fill notSent worldOf str blank started sent_apply sent_revert sent_isSome sent_revert_isSome
  mem_of_all2 fill_eq str_append note_ne track_ne toLink)
open Verif.Flow.Spec
open Spec

variable {t : List UInt8}

theorem step_inv (ht : t.length = 44) {m₀ F slot} (hI : Image m₀ F slot) {fuel : Nat} {s s' : Proc} {o : Order} {a : Nat} {ps : List Patch}
    (ho : Ok F slot o) (hs : Power.Inv t m₀ F slot s.rt ps) (h : step t fuel s o.act = some (s', a)) :
    Power.Inv t m₀ F slot s'.rt (note ps o a) := by
  cases o with
  | apply p =>
    obtain ⟨hp, hf⟩ := ho
    simp only [Order.act, step] at h
    split at h
    · simp only [Option.some.injEq, Prod.mk.injEq] at h
      obtain ⟨rfl, rfl⟩ := h
      exact hs
    · rename_i out hout
      unfold deliver at h
      obtain ⟨m, h1, h2, h3, h4, h5, h6, h7⟩ := sent_apply hp hout (s.buf.drop out.length) p.c0
      rw [fill_eq, h1] at h
      simp only at h
      split at h
      · simp at h
      · rename_i rt b hb
        simp only [Option.some.injEq, Prod.mk.injEq] at h
        obtain ⟨rfl, rfl⟩ := h
        have := Power.serve_inv ht hI (fits_apply hf h4 h5 h7) hs hb
        by_cases hb0 : b = 0
        · subst hb0
          simp only [track, if_pos h2, patch_apply hf h3 h4 h5 h6] at this
          exact this
        · rw [track_ne hb0] at this
          rw [note_ne hb0]
          exact this
  | revert p =>
    have hp : p.Packable := ho
    simp only [Order.act, step] at h
    split at h
    · simp only [Option.some.injEq, Prod.mk.injEq] at h
      obtain ⟨rfl, rfl⟩ := h
      exact hs
    · rename_i out hout
      unfold deliver at h
      obtain ⟨m, h1, h2, h3⟩ := sent_revert hp hout (s.buf.drop out.length) p.c0
      rw [fill_eq, h1] at h
      simp only at h
      split at h
      · simp at h
      · rename_i rt b hb
        simp only [Option.some.injEq, Prod.mk.injEq] at h
        obtain ⟨rfl, rfl⟩ := h
        have := Power.serve_inv ht hI (F := F) (slot := slot) (m₀ := m₀) (by intro h1; omega) hs hb
        by_cases hb0 : b = 0
        · subst hb0
          simp only [track, h2] at this
          simp only [note]
          simpa [h3] using this
        · rw [track_ne hb0] at this
          rw [note_ne hb0]
          exact this
  | revertAll objs prog w lib =>
    simp only [Order.act, step] at h
    split at h
    · simp only [Option.some.injEq, Prod.mk.injEq] at h
      obtain ⟨rfl, rfl⟩ := h
      exact hs
    · have he : str (fill s.buf (lib ++ [0])) = lib := str_append ho
      simp only [ask, he] at h
      cases hb : Power.serve t fuel s.rt (.revertAll (worldOf objs prog w) lib) with
      | none => rw [hb] at h; simp at h
      | some x =>
        rw [hb] at h
        simp only [Option.map_some, Option.some.injEq, Prod.mk.injEq] at h
        obtain ⟨rfl, rfl⟩ := h
        have := Power.serve_inv ht hI (show Power.Spec.Fits F slot (.revertAll _ _) from trivial) hs hb
        by_cases hb0 : x.2 = 0
        · rw [hb0] at this ⊢
          exact this
        · rw [track_ne hb0] at this
          rw [note_ne hb0]
          exact this
  | check id =>
    simp only [Order.act, step, ask] at h
    simp only [Power.serve, Option.map_some, Option.some.injEq, Prod.mk.injEq] at h
    obtain ⟨rfl, rfl⟩ := h
    simpa [note] using hs
  | toggle =>
    simp only [Order.act, step] at h
    cases hb : Power.serve t fuel s.rt .toggle with
    | none => rw [hb] at h; simp at h
    | some x =>
      rw [hb] at h
      simp only [Option.map_some, Option.some.injEq, Prod.mk.injEq] at h
      obtain ⟨rfl, rfl⟩ := h
      have := Power.serve_inv ht hI (show Power.Spec.Fits F slot .toggle from trivial) hs hb
      simpa [note, track] using this

theorem run_inv (ht : t.length = 44) {m₀ F slot} (hI : Image m₀ F slot) {fuel : Nat} (os : List Order) (ho : ∀ o ∈ os, Ok F slot o) {s s' : Proc}
    {as : List Nat} {ps : List Patch} (hs : Power.Inv t m₀ F slot s.rt ps) (h : run t fuel s (os.map Order.act) = some (s', as)) :
    Power.Inv t m₀ F slot s'.rt (noteAll ps os as) := by
  induction os generalizing s as ps with
  | nil =>
    simp only [List.map_nil, run, Option.some.injEq, Prod.mk.injEq] at h
    obtain ⟨rfl, rfl⟩ := h
    exact hs
  | cons o os ih =>
    simp only [List.map_cons, run] at h
    split at h
    · simp at h
    · rename_i s1 r h1
      cases h2 : run t fuel s1 (os.map Order.act) with
      | none => rw [h2] at h; simp at h
      | some x =>
        rw [h2] at h
        simp only [Option.map_some, Option.some.injEq, Prod.mk.injEq] at h
        obtain ⟨rfl, rfl⟩ := h
        exact ih (fun o ho' => ho o (by simp [ho'])) (step_inv ht hI (ho o (by simp)) hs h1) (by rw [h2])

/-! ### C205: functions -/

/-- **C205** From the text of descriptions to calls, on POWER: after any history of applying and reverting packed live
patches, of reverting all patches of a library, of checks and of enabling and disabling, as long as no internal error was
recorded, a call of any live-patchable function, whether it starts with its NOP or with the setup of its TOC pointer, goes
to the function that the newest description still applied names for it, or else to the function's own body. -/
theorem C205_calls_follow_descriptions {m₀ : Mem} {F slot : Nat → Prop} (ht : t.length = 44) (hI : Image m₀ F slot) (fuel : Nat)
    (os : List Order) (ho : ∀ o ∈ os, Ok F slot o) (s : Proc) (as : List Nat)
    (h : run t fuel (started m₀) (os.map Order.act) = some (s, as)) (hh : healthy s.rt.err) (f : Nat) (hf : F f) :
    callDest t (entryOff m₀ f) s.rt.mem f = some ((replacement (noteAll [] os as) f).getD (body m₀ f)) :=
  ((run_inv ht hI os ho (Power.init_inv hI) h).good hh).calls ht hI.range f hf

/-! ### C206: references -/

/-- **C206** Once a description has been applied, every reference in it holds the address at which the process has the
variable it names: the load address of the target plus the offset of the variable in the target (or the given one);
for a thread-local variable, the number of the target's TLS block and the offset in it. -/
theorem C206_references_point_at_variables {m₀ : Mem} {F slot : Nat → Prop} (ht : t.length = 44) (hI : Image m₀ F slot) (fuel : Nat) (os : List Order)
    (ho : ∀ o ∈ os, Ok F slot o) (s : Proc) (as : List Nat) (h : run t fuel (started m₀) (os.map Order.act) = some (s, as))
    (p : Plan) (hp : p.Packable) (hf : Suits p F slot) (so : Nat) (hso : p.w.soBase = some so)
    (hdis : p.links.Pairwise fun a b => p.slotAt so a + a.size ≤ p.slotAt so b ∨ p.slotAt so b + b.size ≤ p.slotAt so a)
    (s' : Proc) (h' : step t fuel s (Order.apply p).act = some (s', 0)) (hh : healthy s'.rt.err) (l : Link) (hl : l ∈ p.links) :
    if l.tls then
      leVal (s'.rt.mem.load (p.slotAt so l) 8) = p.target.tls % 2 ^ 64 ∧
      ∀ block, tlsGetAddr block (leVal (s'.rt.mem.load (p.slotAt so l + 8) 8)) = (block + l.points) % 2 ^ 64
    else leVal (s'.rt.mem.load (p.slotAt so l) 8) = (p.target.bias + l.points) % 2 ^ 64 := by
  have hi := run_inv ht hI os ho (Power.init_inv hI) h
  simp only [Order.act, step] at h'
  split at h'
  · simp [notSent, EUNKNOWN] at h'
  · rename_i out hout
    unfold deliver at h'
    obtain ⟨m, h1, h2, h3, h4, h5, h6, h7⟩ := sent_apply hp hout (s.buf.drop out.length) p.c0
    rw [fill_eq, h1] at h'
    simp only at h'
    split at h'
    · simp at h'
    · rename_i rt b hb
      simp only [Option.some.injEq, Prod.mk.injEq] at h'
      obtain ⟨rfl, rfl⟩ := h'
      have hm := links_eq hf h7
      rw [← hm] at hl
      obtain ⟨r, hr, rfl⟩ := List.mem_map.1 hl
      have key := Power.references_of_inv ht hI fuel s.rt _ hi _ m h2 (fits_apply hf h4 h5 h7) so hso ?_ rt hb hh r (by simpa using hr)
      · rw [h4, (target_found hf).1, (target_found hf).2] at key
        exact key
      · rw [← hm, List.pairwise_map, List.pairwise_reverse] at hdis
        refine hdis.imp ?_
        intro a b hab
        exact hab.symm

/-! ### C117: acceptance -/

/-- **C207** After any history, if no error is recorded and nothing stands in the way, applying a well-formed description
succeeds, and records no error. -/
theorem C207_accepted {m₀ : Mem} {F slot : Nat → Prop} (ht : t.length = 44) (hI : Image m₀ F slot) (fuel : Nat) (os : List Order)
    (ho : ∀ o ∈ os, Ok F slot o) (s : Proc) (as : List Nat) (h : run t fuel (started m₀) (os.map Order.act) = some (s, as))
    (he : s.rt.err = ENONE) (p : Plan) (hp : p.Packable) (hf : Suits p F slot) (hr : p.Ready (noteAll [] os as)) :
    ∃ s', step t fuel s (Order.apply p).act = some (s', 0) ∧ s'.rt.err = ENONE := by
  have hi := run_inv ht hI os ho (Power.init_inv hI) h
  have hg := hi.good (.inl he)
  obtain ⟨out, hout⟩ := sent_isSome hp hr.small
  obtain ⟨m, h1, h2, h3, h4, h5, h6, h7⟩ := sent_apply hp hout (s.buf.drop out.length) p.c0
  obtain ⟨so, hso, hso0⟩ := hr.base
  have hids : ∀ q : Runtime.Applied, q ∈ s.rt.patches → ∃ q' ∈ noteAll [] os as, q'.id = q.id := by
    intro q hq
    rw [← hg.shown]
    exact ⟨_, List.mem_map_of_mem hq, rfl⟩
  have hacc := loadPatch_accepts ht (w := worldOf p.objs p.prog p.w) (m := m) (s := s.rt) h2 hr.buildId hr.loads ?_ ?_ ?_ ?_ ?_ hso hso0 ?_
  · obtain ⟨rt, hs, hs'⟩ := serve_accepts (w := worldOf p.objs p.prog p.w) (fuel := fuel) hi.clean he hr.idle hacc
    simp only [Order.act, step, hout, deliver]
    rw [fill_eq, h1]
    simp only
    rw [hs]
    exact ⟨_, rfl, hs'⟩
  · intro d hd
    rw [h6] at hd
    obtain ⟨q, hq, e⟩ := hr.deps d (by simpa using hd)
    rw [← hg.shown] at hq
    obtain ⟨q', hq', rfl⟩ := List.mem_map.1 hq
    exact ⟨q', hq', e⟩
  · intro q hq
    obtain ⟨q', h1', h2'⟩ := hids q hq
    rw [h3, ← h2']
    exact hr.fresh q' h1'
  · intro u hu
    obtain ⟨f, hfm, hfu⟩ := mem_of_all2 h5 hu
    rw [h4, old_addr hf hfm hfu]
    obtain ⟨-, -, hF, -, hn, -⟩ := hf.funcs f hfm
    refine ⟨?_, ?_, ⟨_, hg.ready _ hF⟩⟩
    · have := (hI.range _ hF).1
      omega
    · show p.w.newSym _ ≠ 0
      rw [hfu.2.1, hn]
      exact hr.funcs f hfm
  · intro r hr' h0
    obtain ⟨x, hx, hxr⟩ := mem_of_all2 h7 (a := r) (by simpa using hr')
    exact hr.names _ (link_of hf hx hxr).2 h0
  · rw [h4, (target_found hf).1]
    exact hr.bias
  · rw [hi.clean.size, Nat.zero_add]
    have hu : m.units.length + m.refs.length ≤ p.d.entries.length := by
      have e1 := h5.1
      have e2 := h7.1
      rw [List.length_reverse] at e2
      rw [e1, e2]
      have h1 : ∀ es : List Entry, (funcs es).length + (refs es).length ≤ es.length := by
        intro es
        induction es with
        | nil => simp [funcs, refs]
        | cons e es ih =>
          cases e <;> simp [funcs, refs] at ih ⊢ <;> omega
      exact h1 _
    have hc : 40 * p.d.entries.length ≤ (p.d.entries.map cost).sum := by
      generalize p.d.entries = es
      induction es with
      | nil => simp
      | cons e es ih => simp only [List.length_cons, List.map_cons, List.sum_cons, cost] at ih ⊢; omega
    have := hr.small.2
    unfold InsnQueue.bufMax
    omega

/-- **C207** Likewise for reverting a patch that is applied and on which no other depends. -/
theorem C207_revert_accepted {m₀ : Mem} {F slot : Nat → Prop} (ht : t.length = 44) (hI : Image m₀ F slot) (fuel : Nat) (os : List Order)
    (ho : ∀ o ∈ os, Ok F slot o) (s : Proc) (as : List Nat) (h : run t fuel (started m₀) (os.map Order.act) = some (s, as))
    (he : s.rt.err = ENONE) (p : Plan) (hp : p.Packable) (hs : p.Small) (hb : p.w.busy = false)
    (hin : ∃ q ∈ noteAll [] os as, q.id = p.id) (hdep : ∀ q ∈ noteAll [] os as, p.id ∉ q.deps) :
    ∃ s', step t fuel s (Order.revert p).act = some (s', 0) := by
  have hi := run_inv ht hI os ho (Power.init_inv hI) h
  obtain ⟨out, hout⟩ := sent_revert_isSome hp hs
  obtain ⟨m, h1, h2, h3⟩ := sent_revert hp hout (s.buf.drop out.length) p.c0
  obtain ⟨rt, hr⟩ := Power.revert_accepted_of_inv ht hI fuel s.rt _ hi he (worldOf p.objs p.prog p.w) hb m h2 (by rw [h3]; exact hin)
    (by rw [h3]; exact hdep)
  simp only [Order.act, step, hout, deliver]
  rw [fill_eq, h1]
  simp only
  rw [hr]
  exact ⟨_, rfl⟩


/-! ### Examples -/

open Verif.Flow (demoPlan demoA demoLp demoLib demo_packable demo_links demo_ready)

theorem demo_suits : Suits demoPlan Runtime.demoF Runtime.demoSlot where
  name := by decide +kernel
  before := by
    intro o h
    rw [List.mem_singleton.1 h]
    left
    rw [SymLoad.Mentions, ← SymLoad.strstr_iff]; decide +kernel
  target := by decide +kernel
  vdso := by decide +kernel
  tables := SymLoad.demoObj_tables _ _ _ _
  funcs := by
    have h : funcs demoPlan.d.entries = [("f".toUTF8.toList, "f_new".toUTF8.toList), ("g".toUTF8.toList, "g_new".toUTF8.toList)] := by decide +kernel
    rw [h]
    intro f hf
    simp only [List.mem_cons, List.not_mem_nil, or_false] at hf
    rcases hf with rfl | rfl
    · exact ⟨by unfold Clear; decide +kernel, by decide +kernel, .inl (by decide +kernel), by decide +kernel, by decide +kernel, by decide +kernel⟩
    · exact ⟨by unfold Clear; decide +kernel, by decide +kernel, .inr (by decide +kernel), by decide +kernel, by decide +kernel, by decide +kernel⟩
  clear := by
    intro tls tn rn h
    simp only [demoPlan, demoA, List.mem_cons, List.not_mem_nil, or_false, Entry.ref.injEq, reduceCtorEq, false_or] at h
    obtain ⟨rfl, rfl, rfl⟩ := h
    exact ⟨by unfold Clear; decide +kernel, by unfold Clear; decide +kernel⟩
  links := by
    rw [demo_links]
    intro l hl so hso
    rw [List.mem_singleton.1 hl]
    have hs : so = 0x4000 := by
      have : demoPlan.w.soBase = some 0x4000 := rfl
      rw [this] at hso
      exact (Option.some.inj hso).symm
    subst hs
    simp only [Plan.slotAt, Link.size, Runtime.demoSlot]
    exact ⟨by decide, by intro i h1 h2; simp at h1 h2; omega⟩

/-- The description is applied: a call of `f`, which starts with its NOP, goes to `f_new`, one of `g`, which starts with
the setup of its TOC pointer, to `g_new`, and the reference in the live patch holds the address of the variable. -/
example : ∃ s, run Power.demoT 1 (started Power.demoMem) [(Order.apply demoPlan).act] = some (s, [0]) ∧
    callDest Power.demoT 0 s.rt.mem 0x1000 = some 0x5300 ∧ callDest Power.demoT 8 s.rt.mem 0x2000 = some 0x5400 ∧
    leVal (s.rt.mem.load 0x5000 8) = 0x1100 := by
  obtain ⟨s, h1, h2⟩ := C207_accepted Power.demo_t Power.demo_image 1 [] (by simp) (started Power.demoMem) [] rfl rfl demoPlan
    demo_packable demo_suits (demo_ready _ (by simp [noteAll]))
  have hr : run Power.demoT 1 (started Power.demoMem) ([Order.apply demoPlan].map Order.act) = some (s, [0]) := by
    simp only [List.map_cons, List.map_nil, run, h1, Option.map_some]
  have ho : ∀ o ∈ [Order.apply demoPlan], Ok Runtime.demoF Runtime.demoSlot o := by
    simpa [Ok] using ⟨demo_packable, demo_suits⟩
  obtain ⟨o1, o2⟩ := Power.demo_off
  refine ⟨s, hr, ?_, ?_, ?_⟩
  · have := C205_calls_follow_descriptions Power.demo_t Power.demo_image 1 _ ho s _ hr (.inl h2) _ (.inl rfl)
    rw [o1] at this
    rw [this]
    decide +kernel
  · have := C205_calls_follow_descriptions Power.demo_t Power.demo_image 1 _ ho s _ hr (.inl h2) _ (.inr rfl)
    rw [o2] at this
    rw [this]
    decide +kernel
  · exact C206_references_point_at_variables Power.demo_t Power.demo_image 1 [] (by simp) (started Power.demoMem) [] rfl demoPlan
      demo_packable demo_suits 0x4000 rfl (by rw [demo_links]; simp) s h1 (.inl h2) ⟨false, "v_ref".toUTF8.toList, 0x1000, 0x900⟩
      (by rw [demo_links]; simp)

/-- It is reverted again: calls go to the bodies of the functions. -/
example : ∃ s, run Power.demoT 1 (started Power.demoMem) [(Order.apply demoPlan).act, (Order.revert demoPlan).act] =
      some (s, [0, 0]) ∧ (healthy s.rt.err → callDest Power.demoT 8 s.rt.mem 0x2000 = some 0x200c) := by
  obtain ⟨s, h1, h2⟩ := C207_accepted Power.demo_t Power.demo_image 1 [] (by simp) (started Power.demoMem) [] rfl rfl demoPlan
    demo_packable demo_suits (demo_ready _ (by simp [noteAll]))
  have ho : ∀ o ∈ [Order.apply demoPlan], Ok Runtime.demoF Runtime.demoSlot o := by
    simpa [Ok] using ⟨demo_packable, demo_suits⟩
  have hr : run Power.demoT 1 (started Power.demoMem) ([Order.apply demoPlan].map Order.act) = some (s, [0]) := by
    simp only [List.map_cons, List.map_nil, run, h1, Option.map_some]
  obtain ⟨s', h3⟩ := C207_revert_accepted Power.demo_t Power.demo_image 1 _ ho s [0] hr h2 demoPlan demo_packable
    (demo_ready [] (by simp)).small rfl ⟨demoPlan.patch, by simp [noteAll, note], rfl⟩ (by simp [noteAll, note, Plan.patch, demoPlan])
  have hr' : run Power.demoT 1 (started Power.demoMem) ([Order.apply demoPlan, Order.revert demoPlan].map Order.act) =
      some (s', [0, 0]) := by
    simp only [List.map_cons, List.map_nil, run, h1, h3, Option.map_some]
  refine ⟨s', hr', fun hh => ?_⟩
  have := C205_calls_follow_descriptions Power.demo_t Power.demo_image 1 _ (by simpa [Ok] using ⟨⟨demo_packable, demo_suits⟩, demo_packable⟩)
    s' _ hr' hh _ (.inr rfl)
  rw [Power.demo_off.2] at this
  rw [this]
  decide +kernel

/-- A description with a thread-local variable. -/
def tlsA : Desc := { demoA with entries := [.func "f".toUTF8.toList "f_new".toUTF8.toList,
  .func "g".toUTF8.toList "g_new".toUTF8.toList, .ref true "v".toUTF8.toList "v_ref".toUTF8.toList] }

example : tlsA.render = "/lp\n\n@/lib\nf:f_new\ng:g_new\n#%v:v_ref\n".toUTF8.toList := by decide +kernel

def tlsPlan : Plan := { demoPlan with d := tlsA }

theorem tls_packable : tlsPlan.Packable where
  good := {
    noLivepatch := rfl
    noTarget := rfl
    head := by decide +kernel
    mid := by decide +kernel
    container := ⟨by decide +kernel, Dsc.path_demo (by decide +kernel), by decide +kernel⟩
    containerFile := ⟨⟨false, [0x7f, 0x45], some demoLp⟩, by decide +kernel, rfl, rfl⟩
    target := ⟨Dsc.path_demo (by decide +kernel), by decide +kernel⟩
    targetFile := ⟨⟨false, [0x7f, 0x45], some demoLib⟩, by decide +kernel, rfl, rfl⟩
    depPaths := by intro s hs; simp [tlsPlan, tlsA, demoPlan, demoA] at hs
    depFiles := Dsc.all2_nil _
    entries := by
      intro x hx
      simp only [tlsPlan, tlsA, demoPlan, List.mem_cons, List.not_mem_nil, or_false] at hx
      rcases hx with rfl | rfl | rfl
      · exact ⟨Dsc.name_demo (by decide +kernel), Dsc.name_demo (by decide +kernel), by decide +kernel, by unfold Dsc.Spec.Has; decide +kernel, by unfold Dsc.Spec.Has; decide +kernel⟩
      · exact ⟨Dsc.name_demo (by decide +kernel), Dsc.name_demo (by decide +kernel), by decide +kernel, by unfold Dsc.Spec.Has; decide +kernel, by unfold Dsc.Spec.Has; decide +kernel⟩
      · exact ⟨Dsc.name_demo (by decide +kernel), Dsc.name_demo (by decide +kernel), by decide +kernel, by unfold Dsc.Spec.Has; decide +kernel, by unfold Dsc.Spec.Has; decide +kernel⟩ }
  fits := ⟨by decide +kernel, by decide +kernel, ⟨by decide +kernel, by decide +kernel⟩, by decide +kernel, by decide +kernel, by decide +kernel⟩
  path := ⟨by decide +kernel, by decide +kernel⟩

theorem tls_links : tlsPlan.links = [⟨true, "v_ref".toUTF8.toList, 0x1000, 0x900⟩] := by decide +kernel

theorem tls_suits : Suits tlsPlan Runtime.demoF Runtime.demoSlot where
  name := by decide +kernel
  before := by
    intro o h
    rw [List.mem_singleton.1 h]
    left
    rw [SymLoad.Mentions, ← SymLoad.strstr_iff]; decide +kernel
  target := by decide +kernel
  vdso := by decide +kernel
  tables := SymLoad.demoObj_tables _ _ _ _
  funcs := by
    have h : funcs tlsPlan.d.entries = [("f".toUTF8.toList, "f_new".toUTF8.toList), ("g".toUTF8.toList, "g_new".toUTF8.toList)] := by decide +kernel
    rw [h]
    intro f hf
    simp only [List.mem_cons, List.not_mem_nil, or_false] at hf
    rcases hf with rfl | rfl
    · exact ⟨by unfold Clear; decide +kernel, by decide +kernel, .inl (by decide +kernel), by decide +kernel, by decide +kernel, by decide +kernel⟩
    · exact ⟨by unfold Clear; decide +kernel, by decide +kernel, .inr (by decide +kernel), by decide +kernel, by decide +kernel, by decide +kernel⟩
  clear := by
    intro tls tn rn h
    simp only [tlsPlan, tlsA, List.mem_cons, List.not_mem_nil, or_false, Entry.ref.injEq, reduceCtorEq, false_or] at h
    obtain ⟨rfl, rfl, rfl⟩ := h
    exact ⟨by unfold Clear; decide +kernel, by unfold Clear; decide +kernel⟩
  links := by
    rw [tls_links]
    intro l hl so hso
    rw [List.mem_singleton.1 hl]
    have hs : so = 0x4000 := by
      have : tlsPlan.w.soBase = some 0x4000 := rfl
      rw [this] at hso
      exact (Option.some.inj hso).symm
    subst hs
    simp only [Plan.slotAt, Link.size, Runtime.demoSlot]
    exact ⟨by decide, by intro i h1 h2; simp at h1 h2; omega⟩

theorem tls_ready (ps : List Patch) (h : ∀ q ∈ ps, q.id ≠ tlsPlan.id) : tlsPlan.Ready ps where
  idle := rfl
  buildId := rfl
  loads := rfl
  deps := by intro d hd; simp [tlsPlan, demoPlan] at hd
  fresh := h
  funcs := by decide +kernel
  names := by rw [tls_links]; decide +kernel
  base := ⟨0x4000, rfl, by decide⟩
  bias := by decide +kernel
  small := ⟨by decide +kernel, by decide +kernel⟩

/-- The reference names the block of the library, 3, and with it `__tls_get_addr` gives the variable 0x900 bytes into it. -/
example : ∃ s, step Power.demoT 1 (started Power.demoMem) (Order.apply tlsPlan).act = some (s, 0) ∧
    leVal (s.rt.mem.load 0x5000 8) = 3 ∧ tlsGetAddr 0x70000000 (leVal (s.rt.mem.load 0x5008 8)) = 0x70000900 := by
  obtain ⟨s, h1, h2⟩ := C207_accepted Power.demo_t Power.demo_image 1 [] (by simp) (started Power.demoMem) [] rfl rfl tlsPlan
    tls_packable tls_suits (tls_ready _ (by simp [noteAll]))
  have := C206_references_point_at_variables Power.demo_t Power.demo_image 1 [] (by simp) (started Power.demoMem) [] rfl tlsPlan
    tls_packable tls_suits 0x4000 rfl (by rw [tls_links]; simp) s h1 (.inl h2) ⟨true, "v_ref".toUTF8.toList, 0x1000, 0x900⟩
    (by rw [tls_links]; simp)
  exact ⟨s, h1, this.1, this.2 0x70000000⟩

end Verif.PowerFlow
