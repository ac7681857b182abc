import Verif.Loader.Lemmas
import Verif.Session.Props

/-!
C144: the code that a live patch brings is that of its container; C145: code that calls are directed to stays; C146: nothing is left of a live patch that is not in force.
-/

namespace Verif.Loader

open Verif.Runtime (State Request World Meta UnitM)
open Verif.Runtime.Spec (Fits healthy replacement patchOf track Patch)
open Verif.Session.Spec (notes)
open Verif.Loader.Spec
open Verif.X86.Spec (callDest body)

variable {fuel : Nat} {okR : Request → Prop} {m₀ : Mem} {F slot : Nat → Prop}

/-- The newest patch decides. -/
theorem replacement_new {v : World} {objs : List Obj} {o : Obj} {m : Meta} {ps : List Patch} {f : Nat} {n : Str} (hn : replacementName v m f = some n) :
    replacement (patchOf (worldOf v (some (objs, o))) m :: ps) f = some (o.addr n) := by
  unfold replacementName at hn
  unfold replacement
  have : (patchOf (worldOf v (some (objs, o))) m).repl.filter (fun u => u.1 = f) =
      (m.units.filter fun u => v.oldSym (getBasename m.lib) u.oldName u.oldAddr = f).map fun u =>
        (v.oldSym (getBasename m.lib) u.oldName u.oldAddr, o.addr u.newName) := by
    show List.filter _ (m.units.map _) = _
    rw [List.filter_map]
    rfl
  rw [this, List.getLast?_map]
  cases hl : (m.units.filter fun u => v.oldSym (getBasename m.lib) u.oldName u.oldAddr = f).getLast? with
  | none => rw [hl] at hn; cases hn
  | some u => rw [hl] at hn; cases hn; rfl

theorem applied_calls (hI : Runtime.Spec.Image m₀ F slot) {c : Conf} (hl : L m₀ F slot c) {v : World} {m : Meta} {base : Nat} {s : State} (ht : m.type = 1)
    (hr : Fits m₀ F slot (.apply (c.world v m base) (.ok m))) (h : Runtime.serve fuel c.s (.apply (c.world v m base) (.ok m)) = some (s, 0)) (hh : healthy s.err)
    {f : Nat} (hf : F f) {n : Str} (hn : replacementName v m f = some n) :
    ∃ objs o, openObj true c.fs c.objs m.soName base = some (objs, o) ∧ (c.after v m base s 0).objs = objs ∧ o.addr n = o.base + o.img.sym n ∧
      callDest s.mem f = some (o.addr n) := by
  obtain ⟨objs, o, h1, h2, h3, h4⟩ := after_ok hl.inv.clean ht h
  refine ⟨objs, o, h1, h2, ?_, ?_⟩
  · have : o.addr n ≠ 0 := by
      unfold replacementName at hn
      obtain ⟨u, hu, rfl⟩ := Option.map_eq_some_iff.mp hn
      exact h4 u (List.mem_filter.mp (List.mem_of_getLast? hu)).1
    unfold Obj.addr at this ⊢
    split at this
    · exact absurd rfl this
    · rw [if_neg (by assumption)]
  · have hi := Runtime.serve_inv hI hr hl.inv h
    have : track (notes [] c.log) (.apply (c.world v m base) (.ok m)) 0 = patchOf (c.world v m base) m :: notes [] c.log := by simp [track, ht]
    rw [this] at hi
    rw [(hi.good hh).calls hI.range f hf, h3, replacement_new hn]; rfl

/-! ### C144 -/

/-- **C144** (partial: the path was not opened before, or the file is still the same) A live patch that was applied directs calls to the functions that are in its container. -/
theorem C144_container_partial (hI : Runtime.Spec.Image m₀ F slot) {fs : Str → Option File} {objs : List Obj} (ht : Tidy fs objs) {c : Conf}
    (hc : Steps fuel (Fits m₀ F slot) (start fs objs m₀) c) {v : World} {m : Meta} {base : Nat} {s : State} (h1 : m.type = 1)
    (hr : Fits m₀ F slot (.apply (c.world v m base) (.ok m))) (h : Runtime.serve fuel c.s (.apply (c.world v m base) (.ok m)) = some (s, 0)) (hh : healthy s.err)
    {file : File} (hfile : c.fs m.soName = some file) (hnew : ∀ o ∈ c.objs, m.soName ∈ o.names → o.img = file.img)
    {f : Nat} (hf : F f) {n : Str} (hn : replacementName v m f = some n) :
    ∃ o ∈ (c.after v m base s 0).objs, o.img = file.img ∧ callDest s.mem f = some (o.base + file.img.sym n) := by
  have hl := steps_L hI hc (start_L hI fs objs)
  obtain ⟨objs', o, h2, h3, h4, h5⟩ := applied_calls hI hl h1 hr h hh hf hn
  have himg : o.img = file.img := by
    rcases openObj_cases h2 with ⟨p, g, -, -, -, h6, h7⟩ | ⟨-, f', h6, -, h7, -⟩
    · rcases h7 with ⟨rfl, -⟩ | ⟨-, -, f', h7, h8⟩
      · have := List.find?_some h6
        exact hnew o (List.mem_of_find?_eq_some h6) (by simpa using this)
      · rw [hfile] at h7; cases h7
        exact (steps_tidy hc ht).files.loaded _ _ hfile o (List.mem_of_find?_eq_some h6) h8
    · rw [hfile] at h6; cases h6
      rw [h7]
  obtain ⟨o', h6, -, h7, -⟩ := (open_gives h2).mem
  refine ⟨o', h3 ▸ h6, h7.1.trans himg, ?_⟩
  rw [h5, h4, himg, h7.2]

/-- **C144** (negation) Once libpulp has opened a path, for a patch applied, refused or reverted since, every later live patch from that path brings the functions that were in the
file then, whatever is there now. -/
theorem C144_stale (hI : Runtime.Spec.Image m₀ F slot) {fs : Str → Option File} {objs : List Obj} {c : Conf}
    (hc : Steps fuel (Fits m₀ F slot) (start fs objs m₀) c) {v : World} {m : Meta} {base : Nat} {s : State} {a : Nat} {objs' : List Obj} {o : Obj}
    (hs : Step fuel (Fits m₀ F slot) c (c.after v m base s a)) (hr : reaches v m c.s = true) (ho : openObj true c.fs c.objs m.soName base = some (objs', o))
    {d : Conf} (hd : Steps fuel (Fits m₀ F slot) (c.after v m base s a) d)
    {v' : World} {m' : Meta} {base' : Nat} {s' : State} (h1 : m'.type = 1) (hp : m'.soName = m.soName)
    (hr' : Fits m₀ F slot (.apply (d.world v' m' base') (.ok m'))) (h : Runtime.serve fuel d.s (.apply (d.world v' m' base') (.ok m')) = some (s', 0)) (hh : healthy s'.err)
    {f : Nat} (hf : F f) {n : Str} (hn : replacementName v' m' f = some n) :
    callDest s'.mem f = some (o.base + o.img.sym n) := by
  have hl := steps_L hI hd (step_L hI hs (steps_L hI hc (start_L hI fs objs)))
  obtain ⟨objs'', x, h2, h3, h4, h5⟩ := applied_calls hI hl h1 hr' h hh hf hn
  have hnamed : Named m.soName o (c.after v m base s a).objs := by
    show Named m.soName o (match openObj true c.fs c.objs m.soName base with | none => c.objs | some (objs, _) => if reaches v m c.s then objs else c.objs)
    rw [ho, hr]
    exact open_gives ho
  obtain ⟨y, z, h6, h7⟩ := (steps_named hd hnamed).opened (b := true) (fs := d.fs) (base := base')
  rw [hp, h6] at h2
  cases h2
  rw [h5, h4, h7.1, h7.2]

/-! ### C145 -/

/-- **C145** Where a call of a live-patchable function goes, there is the function itself or code in a loaded object, and that object stays, as it is and where it is, whatever
happens later: requests that succeed or fail, files that are replaced, objects that the program opens and closes. -/
theorem C145_code_stays (hI : Runtime.Spec.Image m₀ F slot) {fs : Str → Option File} {objs : List Obj} {c : Conf}
    (hc : Steps fuel (Fits m₀ F slot) (start fs objs m₀) c) (hh : healthy c.s.err) {f a : Nat} (hf : F f) (ha : callDest c.s.mem f = some a) :
    a = body m₀ f ∨ ∃ o ∈ c.objs, Covers o a ∧ ∀ d, Steps fuel (Fits m₀ F slot) c d → ∃ o' ∈ d.objs, Same o o' ∧ Covers o' a := by
  have hl := steps_L hI hc (start_L hI fs objs)
  rw [(hl.inv.good hh).calls hI.range f hf] at ha
  cases ha
  cases hr : replacement (notes [] c.log) f with
  | none => exact .inl rfl
  | some t =>
    right
    have hm : ∃ p ∈ notes [] c.log, ∃ x ∈ p.repl, x.2 = t := by
      clear hl
      generalize notes [] c.log = ps at hr
      induction ps with
      | nil => cases hr
      | cons p ps ih =>
        unfold replacement at hr
        split at hr
        · rename_i u hu
          cases hr
          exact ⟨p, List.mem_cons_self .., u, (List.mem_filter.mp (List.mem_of_getLast? hu)).1, rfl⟩
        · obtain ⟨q, h1, h2⟩ := ih hr
          exact ⟨q, List.mem_cons_of_mem _ h1, h2⟩
    obtain ⟨p, h1, x, h2, rfl⟩ := hm
    obtain ⟨o, h3, h4, h5⟩ := hl.homes p h1 x h2
    refine ⟨o, h3, h5, fun d hd => ?_⟩
    obtain ⟨o', h6, h7, -⟩ := steps_persist hd o h3 h4
    exact ⟨o', h6, h7, Same.covers h7 h5⟩

/-- **C145** No other object is there. -/
theorem C145_one {fs : Str → Option File} {objs : List Obj} (ht : Tidy fs objs) {c : Conf} (hc : Steps fuel okR (start fs objs m₀) c) {o o' : Obj} (ho : o ∈ c.objs) (ho' : o' ∈ c.objs)
    {a : Nat} (ha : Covers o a) (ha' : Covers o' a) : o = o' := by
  have hp := (steps_tidy hc ht).apart
  obtain ⟨i, hi, rfl⟩ := List.mem_iff_getElem.mp ho
  obtain ⟨j, hj, rfl⟩ := List.mem_iff_getElem.mp ho'
  have hp := List.pairwise_iff_getElem.mp hp
  unfold Covers at ha ha'
  rcases Nat.lt_trichotomy i j with h | rfl | h
  · have := hp i j hi hj h; omega
  · rfl
  · have := hp j i hj hi h; omega

/-! ### C146 -/

/-- **C146** (partial: refused because libpulp is busy, or because of the build id, a dependency or being applied already, or because the container cannot be loaded; or to revert)
Such a request loads nothing. -/
theorem C146_refused_partial {c : Conf} {v : World} {m : Meta} {base : Nat} {s : State} {a : Nat}
    (h : Runtime.serve fuel c.s (.apply (c.world v m base) (.ok m)) = some (s, a))
    (ha : a = EAGAIN ∨ a = EBUILDID ∨ a = EDEPEND ∨ a = EAPPLIED ∨ a = EDLOPEN ∨ m.type = 2) : (c.after v m base s a).objs = c.objs := by
  show (match openObj true c.fs c.objs m.soName base with | none => c.objs | some (objs, _) => if reaches v m c.s then objs else c.objs) = c.objs
  cases ho : openObj true c.fs c.objs m.soName base with
  | none => rfl
  | some p =>
    obtain ⟨objs', o⟩ := p
    show (if _ then _ else _) = _
    by_cases hr : reaches v m c.s = true
    · exfalso
      obtain ⟨h1, h2⟩ := reaches_late (by rw [ho]; rfl) hr h
      unfold Late at h2
      rcases ha with rfl | rfl | rfl | rfl | rfl | h3
      all_goals first | exact h1 h3 | exact absurd h2 (by decide)
    · rw [if_neg hr]

/-- **C146** (negation) Once the container was opened, it stays, whatever the answer was and whatever happens later. -/
theorem C146_left {c : Conf} {v : World} {m : Meta} {base : Nat} {s : State} {a : Nat} {objs' : List Obj} {o : Obj} (hr : reaches v m c.s = true)
    (ho : openObj true c.fs c.objs m.soName base = some (objs', o)) {d : Conf} (hd : Steps fuel okR (c.after v m base s a) d) :
    ∃ o' ∈ d.objs, m.soName ∈ o'.names ∧ Same o o' := by
  have hnamed : Named m.soName o (c.after v m base s a).objs := by
    show Named m.soName o (match openObj true c.fs c.objs m.soName base with | none => c.objs | some (objs, _) => if reaches v m c.s then objs else c.objs)
    rw [ho, hr]
    exact open_gives ho
  obtain ⟨o', h1, h2, h3, -⟩ := (steps_named hd hnamed).mem
  exact ⟨o', h1, h2, h3⟩

theorem Steps.trans {c d e : Conf} (h1 : Steps fuel okR c d) (h2 : Steps fuel okR d e) : Steps fuel okR c e := by
  induction h2 with
  | refl => exact h1
  | tail _ hs ih => exact .tail ih hs

/-! ### A container that is replaced -/

open Verif.Runtime (demoMem demoF demoSlot demoWorld demo_image demo_body libA)

/-- "/p.so" -/
def demoPath : Str := [47, 112, 46, 115, 111]

/-- A container with one function, called `[1]`, at offset `k`. -/
def demoImg (k : Nat) (h : k < 0x1000) : Image := ⟨0x1000, fun n => if n = [1] then k else 0, fun n => by
  by_cases e : n = [1]
  · exact .inr (by rw [if_pos e]; exact h)
  · exact .inl (if_neg e)⟩

def img1 : Image := demoImg 0x10 (by decide)
def img2 : Image := demoImg 0x20 (by decide)

/-- One file, as built first. -/
def fs1 : Str → Option File := fun p => if p = demoPath then some ⟨1, img1⟩ else none

/-- The same, built again. -/
def fs2 : Str → Option File := fun p => if p = demoPath then some ⟨2, img2⟩ else none

/-- The live patch `[n]` from that file, replacing the function at 0x1000 by `name`. -/
def demoMeta (n : UInt8) (name : Str) : Meta :=
  { type := 1, id := [n], soName := demoPath, lib := libA, units := [{ oldName := [], newName := name, oldAddr := 0x1000 }], deps := [], refs := [] }

/-- To revert it. -/
def demoUndo (n : UInt8) : Meta := { demoMeta n [1] with type := 2 }

/-- The container as it is loaded. -/
def demoObj (k : Nat) : Obj := ⟨[demoPath], 1, img1, 0x700000, k, 0⟩

theorem fs_some {k : Nat} {im : Image} {p : Str} {f : File} (h : (if p = demoPath then some (⟨k, im⟩ : File) else none) = some f) : f = ⟨k, im⟩ := by
  split at h
  · cases h; rfl
  · cases h

theorem demo_tidy : Tidy fs1 [] := ⟨List.Pairwise.nil, fun p q f g h1 h2 _ => by rw [fs_some h1, fs_some h2], nofun⟩

theorem demo_coherent : Coherent fs2 [demoObj 1] := ⟨fun p q f g h1 h2 _ => by rw [fs_some h1, fs_some h2], fun p f h o ho e => by
  rw [List.mem_singleton.mp ho, fs_some h] at e; exact absurd e (by decide)⟩

theorem demo_free : ∀ f, fs1 demoPath = some f → Free [] 0x700000 f.img.size := fun _ _ => ⟨by decide, nofun⟩

theorem demo_open1 : openObj true fs1 [] demoPath 0x700000 = some ([demoObj 1], demoObj 0) := rfl

theorem demo_open2 (fs : Str → Option File) (k base : Nat) : openObj true fs [demoObj k] demoPath base = some ([demoObj (k + 1)], demoObj k) := rfl

theorem demo_addr (k : Nat) (name : Str) : (demoObj k).addr name = 0 ∨ (demoObj k).addr name = 0x700010 := by
  show (if (if name = [1] then 0x10 else 0) = 0 then 0 else 0x700000 + (if name = [1] then 0x10 else 0)) = 0 ∨ _ = 0x700010
  by_cases e : name = [1]
  · right
    show (if (if name = [1] then 0x10 else 0) = 0 then 0 else 0x700000 + (if name = [1] then 0x10 else 0)) = 0x700010
    simp [e]
  · left; simp [e]

theorem demo_room (k : Nat) {fs : Str → Option File} (h : fs = fs1 ∨ fs = fs2) : ∀ f, fs demoPath = some f → Free [demoObj k] 0x800000 f.img.size := by
  intro f hf
  refine ⟨by decide, fun o ho => ?_⟩
  rw [List.mem_singleton.mp ho]
  exact .inr (show 0x700000 + 0x1000 ≤ 0x800000 by decide)

theorem demo_fits' (v : World) (hv : v.oldSym = demoWorld.oldSym) (k : Nat) (l : List Obj) (n : UInt8) (name : Str) :
    Fits demoMem demoF demoSlot (.apply (worldOf v (some (l, demoObj k))) (.ok (demoMeta n name))) := by
  intro _
  refine ⟨?_, nofun⟩
  intro u hu
  rw [demoMeta, List.mem_singleton] at hu
  subst hu
  refine .inr ⟨?_, ?_, ?_⟩
  · show demoF (v.oldSym _ _ 0x1000)
    rw [hv]; exact .inl rfl
  · show (demoObj k).addr name < 2 ^ 64
    rcases demo_addr k name with e | e <;> rw [e] <;> decide
  · show ¬ Runtime.Spec.inPad demoMem (v.oldSym _ _ 0x1000) ((demoObj k).addr name)
    rw [hv]
    show ¬ Runtime.Spec.inPad demoMem 0x1000 ((demoObj k).addr name)
    simp only [Runtime.Spec.inPad, demo_body]
    rcases demo_addr k name with e | e <;> rw [e] <;> decide

abbrev DemoSteps := Steps 10 (Fits demoMem demoF demoSlot)

/-- Applied, reverted, and the file replaced. -/
theorem demo_replaced : ∃ (s1 : State), Runtime.serve 10 (State.init demoMem) (.apply (worldOf demoWorld (some ([demoObj 1], demoObj 0))) (.ok (demoMeta 1 [1]))) = some (s1, 0) ∧ s1.err = 0 ∧
    callDest s1.mem 0x1000 = some 0x700010 ∧
    ∃ (s2 : State) (log : List (Request × Nat)), DemoSteps ((start fs1 [] demoMem).after demoWorld (demoMeta 1 [1]) 0x700000 s1 0) ⟨fs2, [demoObj 1], s2, log⟩ ∧
    ∃ s3, Runtime.serve 10 s2 (.apply (worldOf demoWorld (some ([demoObj 2], demoObj 1))) (.ok (demoMeta 2 [1]))) = some (s3, 0) ∧ s3.err = 0 ∧
      callDest s3.mem 0x1000 = some 0x700010 := by
  have e : ((Runtime.serve 10 (State.init demoMem) (.apply (worldOf demoWorld (some ([demoObj 1], demoObj 0))) (.ok (demoMeta 1 [1])))).bind fun p =>
      (Runtime.serve 10 p.1 (.apply (worldOf demoWorld (some ([demoObj 2], demoObj 1))) (.ok (demoUndo 1)))).bind fun q =>
      (Runtime.serve 10 q.1 (.apply (worldOf demoWorld (some ([demoObj 2], demoObj 1))) (.ok (demoMeta 2 [1])))).map fun r =>
      ((p.2, p.1.err, callDest p.1.mem 0x1000), q.2, r.2, r.1.err, callDest r.1.mem 0x1000)) = some ((0, 0, some 0x700010), 0, 0, 0, some 0x700010) := by decide +kernel
  cases h1 : Runtime.serve 10 (State.init demoMem) (.apply (worldOf demoWorld (some ([demoObj 1], demoObj 0))) (.ok (demoMeta 1 [1]))) with
  | none => rw [h1] at e; cases e
  | some p =>
    obtain ⟨s1, a1⟩ := p
    rw [h1, Option.bind_some] at e
    simp only at e
    cases h2 : Runtime.serve 10 s1 (.apply (worldOf demoWorld (some ([demoObj 2], demoObj 1))) (.ok (demoUndo 1))) with
    | none => rw [h2] at e; cases e
    | some q =>
      obtain ⟨s2, a2⟩ := q
      rw [h2, Option.bind_some] at e
      simp only at e
      cases h3 : Runtime.serve 10 s2 (.apply (worldOf demoWorld (some ([demoObj 2], demoObj 1))) (.ok (demoMeta 2 [1]))) with
      | none => rw [h3] at e; cases e
      | some r =>
        obtain ⟨s3, a3⟩ := r
        rw [h3] at e
        simp only [Option.map_some, Option.some.injEq, Prod.mk.injEq] at e
        obtain ⟨⟨rfl, e1, e2⟩, rfl, rfl, e3, e4⟩ := e
        refine ⟨s1, rfl, e1, e2, s2, ?_⟩
        have ho : ((start fs1 [] demoMem).after demoWorld (demoMeta 1 [1]) 0x700000 s1 0).objs = [demoObj 1] := by
          show (if reaches demoWorld (demoMeta 1 [1]) (State.init demoMem) then [demoObj 1] else []) = [demoObj 1]
          rw [if_pos (by decide +kernel)]
        generalize hc : (start fs1 [] demoMem).after demoWorld (demoMeta 1 [1]) 0x700000 s1 0 = c at ho
        have hs : c.s = s1 := by rw [← hc]; rfl
        have hf : c.fs = fs1 := by rw [← hc]; rfl
        have hw : c.world demoWorld (demoUndo 1) 0x800000 = worldOf demoWorld (some ([demoObj 2], demoObj 1)) := by
          unfold Conf.world; rw [ho]; rfl
        have hu : DemoSteps c (c.after demoWorld (demoUndo 1) 0x800000 s2 0) := by
          refine .tail .refl (.apply c demoWorld (demoUndo 1) 0x800000 s2 0 ?_ ?_ ?_)
          · rw [ho, hf]; exact demo_room 1 (.inl rfl)
          · rw [hw]; intro h; cases h
          · rw [hw, hs]; exact h2
        have ho2 : (c.after demoWorld (demoUndo 1) 0x800000 s2 0).objs = [demoObj 1] := by
          rw [C146_refused_partial (fuel := 10) (by rw [hw, hs]; exact h2) (.inr (.inr (.inr (.inr (.inr rfl))))), ho]
        refine ⟨(c.after demoWorld (demoUndo 1) 0x800000 s2 0).log, ?_, s3, h3, e3, e4⟩
        have := Steps.tail hu (.files _ fs2 (by rw [ho2]; exact demo_coherent))
        rw [← ho2]
        exact this

/-- **C144** (negation) A container is applied and reverted, its file is replaced by one where the function is elsewhere, and a live patch with that file as its container is applied.
It is reported as applied. Calls go to the code of the old file, and nothing of the new one is loaded. -/
theorem C144_replaced : ∃ (c : Conf) (s : State) (file : File), DemoSteps (start fs1 [] demoMem) c ∧ c.fs demoPath = some file ∧
    replacementName demoWorld (demoMeta 2 [1]) 0x1000 = some [1] ∧ file.img.sym [1] = 0x20 ∧
    Fits demoMem demoF demoSlot (.apply (c.world demoWorld (demoMeta 2 [1]) 0x800000) (.ok (demoMeta 2 [1]))) ∧
    Runtime.serve 10 c.s (.apply (c.world demoWorld (demoMeta 2 [1]) 0x800000) (.ok (demoMeta 2 [1]))) = some (s, 0) ∧ healthy s.err ∧
    callDest s.mem 0x1000 = some (0x700000 + 0x10) ∧ ∀ o ∈ (c.after demoWorld (demoMeta 2 [1]) 0x800000 s 0).objs, o.base = 0x700000 ∧ o.img.sym [1] = 0x10 := by
  obtain ⟨s1, h1, -, -, s2, log, h2, s3, h3, h4, h5⟩ := demo_replaced
  refine ⟨⟨fs2, [demoObj 1], s2, log⟩, s3, ⟨2, img2⟩, .trans (.tail .refl (.apply _ demoWorld (demoMeta 1 [1]) 0x700000 s1 0 demo_free ?_ h1)) h2, rfl, by decide, rfl, ?_, h3, .inl h4, h5, ?_⟩
  · exact demo_fits' demoWorld rfl 0 _ 1 [1]
  · exact demo_fits' demoWorld rfl 1 _ 2 [1]
  · intro o ho
    replace ho : o ∈ (if reaches demoWorld (demoMeta 2 [1]) s2 then [demoObj 2] else [demoObj 1]) := ho
    split at ho <;> rw [List.mem_singleton.mp ho] <;> exact ⟨rfl, rfl⟩

/-- The live patch whose function is not in its container. -/
theorem demo_missing : ∃ s, Runtime.serve 10 (State.init demoMem) (.apply (worldOf demoWorld (some ([demoObj 1], demoObj 0))) (.ok (demoMeta 1 [9]))) = some (s, ESTATE) := by
  have e : (Runtime.serve 10 (State.init demoMem) (.apply (worldOf demoWorld (some ([demoObj 1], demoObj 0))) (.ok (demoMeta 1 [9])))).map (·.2) = some ESTATE := by
    decide +kernel
  obtain ⟨p, h, e⟩ := Option.map_eq_some_iff.mp e
  exact ⟨p.1, h.trans (by rw [← e])⟩

/-- **C146** (negation) A live patch is refused since its function is missing, and its container is in the process for good. -/
theorem C146_refused_loaded : ∃ s, Step 10 (Fits demoMem demoF demoSlot) (start fs1 [] demoMem) ((start fs1 [] demoMem).after demoWorld (demoMeta 1 [9]) 0x700000 s ESTATE) ∧
    ∀ d, DemoSteps ((start fs1 [] demoMem).after demoWorld (demoMeta 1 [9]) 0x700000 s ESTATE) d → ∃ o ∈ d.objs, o.base = 0x700000 ∧ o.img = img1 := by
  obtain ⟨s, h⟩ := demo_missing
  refine ⟨s, .apply _ demoWorld (demoMeta 1 [9]) 0x700000 s ESTATE demo_free (demo_fits' demoWorld rfl 0 _ 1 [9]) h, fun d hd => ?_⟩
  obtain ⟨o, h1, -, h2⟩ := C146_left (c := start fs1 [] demoMem) (v := demoWorld) (m := demoMeta 1 [9]) (by decide +kernel) demo_open1 hd
  exact ⟨o, h1, h2.2, h2.1⟩

/-! ### Cases -/

/-- C144, C145: the first live patch. -/
theorem demo_first : ∃ s, Step 10 (Fits demoMem demoF demoSlot) (start fs1 [] demoMem) ((start fs1 [] demoMem).after demoWorld (demoMeta 1 [1]) 0x700000 s 0) ∧ healthy s.err ∧
    callDest s.mem 0x1000 = some 0x700010 := by
  obtain ⟨s1, h1, h2, h3, -⟩ := demo_replaced
  exact ⟨s1, .apply _ demoWorld (demoMeta 1 [1]) 0x700000 s1 0 demo_free (demo_fits' demoWorld rfl 0 _ 1 [1]) h1, .inl h2, h3⟩

/-- C144_container_partial: it brings what is in the file. -/
example : ∃ s, ∃ o ∈ ((start fs1 [] demoMem).after demoWorld (demoMeta 1 [1]) 0x700000 s 0).objs, o.img = img1 ∧ callDest s.mem 0x1000 = some (o.base + 0x10) := by
  obtain ⟨s1, h1, h2, -⟩ := demo_replaced
  exact ⟨s1, C144_container_partial (n := [1]) demo_image demo_tidy .refl rfl (demo_fits' demoWorld rfl 0 _ 1 [1]) h1 (.inl h2) (file := ⟨1, img1⟩) rfl nofun (.inl rfl)
    (by decide)⟩

/-- C144_stale: the second brings what was in the file when the first was applied. -/
example : ∃ s, callDest (State.mem s) 0x1000 = some (0x700000 + img1.sym [1]) := by
  obtain ⟨s1, h1, -, -, s2, log, h2, s3, h3, h4, -⟩ := demo_replaced
  exact ⟨s3, C144_stale (n := [1]) (c := start fs1 [] demoMem) (m := demoMeta 1 [1]) (m' := demoMeta 2 [1]) (d := ⟨fs2, [demoObj 1], s2, log⟩) (base' := 0x800000) demo_image .refl
    (.apply _ demoWorld (demoMeta 1 [1]) 0x700000 s1 0 demo_free (demo_fits' demoWorld rfl 0 _ 1 [1]) h1) (by decide +kernel) demo_open1 h2 rfl rfl
    (demo_fits' demoWorld rfl 1 _ 2 [1]) h3 (.inl h4) (.inl rfl) (by decide)⟩

/-- C145_code_stays: the code at 0x700010 stays. -/
example : ∃ (c : Conf), callDest c.s.mem 0x1000 = some 0x700010 ∧ ∃ o ∈ c.objs, Covers o 0x700010 ∧ ∀ d, DemoSteps c d → ∃ o' ∈ d.objs, Same o o' ∧ Covers o' 0x700010 := by
  obtain ⟨s, h1, h2, h3⟩ := demo_first
  refine ⟨(start fs1 [] demoMem).after demoWorld (demoMeta 1 [1]) 0x700000 s 0, h3, ?_⟩
  rcases C145_code_stays demo_image (.tail .refl h1) h2 (.inl rfl) h3 with h | h
  · rw [demo_body] at h; exact absurd h (by decide)
  · exact h

/-- C145_one: two objects in the process from the start, and the container. -/
example : ∀ o ∈ [demoObj 0, ⟨[[1]], 7, img2, 0x900000, 0, 1⟩], ∀ o' ∈ [demoObj 0, ⟨[[1]], 7, img2, 0x900000, 0, 1⟩], Covers o 0x900010 → Covers o' 0x900010 → o = o' :=
  fun _ h _ h' => C145_one (fuel := 10) (okR := Fits demoMem demoF demoSlot) (m₀ := demoMem) (fs := fs1)
    ⟨by
      refine List.Pairwise.cons (fun o ho => ?_) (List.pairwise_singleton ..)
      rw [List.mem_singleton.mp ho]
      exact .inr (show 0x700000 + 0x1000 ≤ 0x900000 by decide),
     fun p q f g h1 h2 _ => by rw [fs_some h1, fs_some h2],
     fun p f h o ho e => by
      rw [fs_some h] at e ⊢
      rcases List.mem_cons.mp ho with rfl | ho
      · rfl
      · rw [List.mem_singleton.mp ho] at e; exact absurd e (by decide)⟩ .refl h h'

/-- C146_refused_partial: a live patch that is not for this library. -/
example : ∃ s a, ((start fs1 [] demoMem).after { demoWorld with buildIdOk := false } (demoMeta 1 [1]) 0x700000 s a).objs = [] := by
  have e : (Runtime.serve 10 (State.init demoMem) (.apply (worldOf { demoWorld with buildIdOk := false } (some ([demoObj 1], demoObj 0))) (.ok (demoMeta 1 [1])))).map (·.2) = some EBUILDID := by
    decide +kernel
  obtain ⟨p, h, e⟩ := Option.map_eq_some_iff.mp e
  exact ⟨p.1, p.2, C146_refused_partial (fuel := 10) (c := start fs1 [] demoMem) h (.inr (.inl e))⟩

/-- C146_left: the container of a live patch that was reverted, and whose file was replaced. -/
example : ∃ (d : Conf), (d.fs demoPath).map (·.ino) = some 2 ∧ ∃ o ∈ d.objs, demoPath ∈ o.names ∧ Same (demoObj 0) o := by
  obtain ⟨s1, h1, -, -, s2, log, h2, -⟩ := demo_replaced
  exact ⟨⟨fs2, [demoObj 1], s2, log⟩, rfl, C146_left (c := start fs1 [] demoMem) (v := demoWorld) (m := demoMeta 1 [1]) (by decide +kernel) demo_open1 h2⟩

end Verif.Loader
