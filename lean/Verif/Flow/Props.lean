import Verif.Flow.Accept

/-!
C115–C117: from the description to the process.
-/

namespace Verif.Flow

open Verif.Extract (SoInfo)
open Verif.Dsc.Spec (Desc Entry funcs refs At RefFor UnitFor Describes)
open Verif.Metadata.Spec (All₂ cstring UnitIs RefIs IsApply IsRevert)
open Verif.Runtime (Meta UnitM RefM World State Request serve)
open Verif.Runtime.Spec (Patch libKey inPad Image healthy replacement patchOf track refAddr refSize)
open Verif.X86.Spec (callDest body)
open Spec

/-! ### What the process makes of what is sent -/

theorem str_of_cstring {b : Bytes} {s : Str} (h : cstring b = some s) : str b = s := by
  induction b generalizing s with
  | nil => simp [cstring] at h
  | cons c cs ih =>
    unfold cstring at h
    by_cases hc : c = 0
    · subst hc
      simp only [Option.some.injEq] at h
      subst h
      rfl
    · split at h
      · rename_i e; simp at e
      · rename_i e; simp at e; exact absurd e.1 hc
      · rename_i c' cs' _ e
        simp only [List.cons.injEq] at e
        obtain ⟨rfl, rfl⟩ := e
        cases hs : cstring cs with
        | none => rw [hs] at h; simp at h
        | some s' =>
          rw [hs] at h
          simp only [Option.map_some, Option.some.injEq] at h
          subst h
          have := ih hs
          unfold str at this ⊢
          rw [List.takeWhile_cons, if_pos (by simpa using hc), this]

theorem all2_map {α β γ} {R : α → β → Prop} {S : γ → β → Prop} {f : α → γ} {l : List α} {k : List β} (h : All₂ R l k)
    (hf : ∀ a b, R a b → S (f a) b) : All₂ S (l.map f) k := by
  refine ⟨by simpa using h.1, fun i h1 h2 => ?_⟩
  simp only [List.getElem_map]
  exact hf _ _ (h.2 i (by simpa using h1) h2)

theorem all2_trans {α β γ} {R : α → β → Prop} {S : β → γ → Prop} {T : α → γ → Prop} {l : List α} {k : List β} {n : List γ}
    (h : All₂ R l k) (h' : All₂ S k n) (hf : ∀ a b c, R a b → S b c → T a c) : All₂ T l n := by
  refine ⟨h.1.trans h'.1, fun i h1 h2 => ?_⟩
  exact hf _ _ _ (h.2 i h1 (h.1 ▸ h1)) (h'.2 i (h.1 ▸ h1) h2)

theorem all2_reverse {α β} {R : α → β → Prop} {l : List α} {k : List β} (h : All₂ R l k) : All₂ R l.reverse k.reverse := by
  refine ⟨by simpa using h.1, fun i h1 h2 => ?_⟩
  simp only [List.getElem_reverse]
  have := h.1
  simp only [List.length_reverse] at h1 h2
  have hk := h.2 (l.length - 1 - i) (by omega) (by omega)
  have he : k.length - 1 - i = l.length - 1 - i := by omega
  simpa only [he] using hk

theorem map_eq_of_all2 {α β γ} {R : α → β → Prop} {f : α → γ} {g : β → γ} {l : List α} {k : List β} (h : All₂ R l k)
    (hf : ∀ a b, b ∈ k → R a b → f a = g b) : l.map f = k.map g := by
  apply List.ext_getElem
  · simpa using h.1
  · intro i h1 h2
    simp only [List.getElem_map]
    simp only [List.length_map] at h1 h2
    exact hf _ _ (List.getElem_mem h2) (h.2 i h1 h2)

/-- A unit of the request is for the pair of functions of the description. -/
def MUnit (t : SoInfo) (u : UnitM) (f : Str × Str) : Prop := u.oldName = f.1 ∧ u.newName = f.2 ∧ Dsc.Spec.At t f.1 u.oldAddr

/-- A reference of the request is that of the entry. -/
def MRef (t c : SoInfo) (r : RefM) (x : Entry) : Prop :=
  RefFor t c ⟨r.targetName, r.refName, r.targetOff, r.patchOff, r.tls⟩ x

theorem sent_apply {p : Plan} (hp : p.Packable) {out : Bytes} (h : p.job.sent false = some out) (rest c0 : Bytes) :
    ∃ m, parsed (out ++ rest) c0 = some (.ok m) ∧ m.type = 1 ∧ m.id = p.id ∧ m.lib = p.t.name ∧
      All₂ (MUnit p.t) m.units (funcs p.d.entries) ∧ m.deps = p.deps.reverse ∧
      All₂ (MRef p.t p.c) m.refs.reverse (refs p.d.entries) := by
  obtain ⟨P, h1, h2, h3⟩ := Dsc.C80_reaches_process hp.good hp.fits hp.path.1 hp.path.2
  have h1' : Dsc.describe p.job.env p.job.id p.job.text = .ok P := h1
  unfold Job.sent at h
  rw [h1'] at h
  simp only [Bool.false_eq_true, if_false] at h
  split at h
  · rename_i out' ho
    simp only [Option.some.injEq] at h
    subst h
    obtain ⟨q, st, h4, h5⟩ := h3 _ ho rest c0
    refine ⟨metaOf q, ?_, ?_, ?_, ?_, ?_, ?_, ?_⟩
    · unfold parsed; rw [h4]
    · simp [metaOf, h5.type]
    · exact h5.id.trans h2.id
    · exact (str_of_cstring h5.name).trans h2.name
    · refine all2_map (f := fun u : Metadata.PUnit => (⟨str u.oldFname, str u.newFname, u.oldFaddr⟩ : UnitM))
        (all2_trans h5.units h2.units (T := fun u f => MUnit p.t ⟨str u.oldFname, str u.newFname, u.oldFaddr⟩ f) ?_) (fun _ _ h => h)
      rintro u v f ⟨a1, a2, a3⟩ ⟨b1, b2, b3⟩
      refine ⟨(str_of_cstring a1).trans b1, (str_of_cstring a2).trans b2, ?_⟩
      show Dsc.Spec.At _ _ u.oldFaddr
      rw [a3]; exact b3
    · show q.deps = _
      rw [h5.deps, ← h2.deps, List.reverse_reverse]
    · show All₂ _ (List.map _ q.refs).reverse _
      rw [← List.map_reverse]
      refine all2_map (all2_trans (all2_reverse h5.refs) h2.refs
        (T := fun u f => MRef p.t p.c ⟨str u.targetName, str u.referenceName, u.targetOffset, u.patchOffset, u.tls != 0⟩ f) ?_) (fun _ _ h => h)
      rintro u v f ⟨a1, a2, a3, a4, a5⟩ hv
      unfold MRef
      have he : (⟨str u.targetName, str u.referenceName, u.targetOffset, u.patchOffset, u.tls != 0⟩ : Metadata.Ref) = v := by
        rw [str_of_cstring a1, str_of_cstring a2, a3, a4, a5]
        cases v; simp only; rename_i tls
        cases tls <;> rfl
      simp only
      rw [he]; exact hv
  · simp at h

theorem sent_revert {p : Plan} (hp : p.Packable) {out : Bytes} (h : p.job.sent true = some out) (rest c0 : Bytes) :
    ∃ m, parsed (out ++ rest) c0 = some (.ok m) ∧ m.type = 2 ∧ m.id = p.id := by
  obtain ⟨P, h1, h2⟩ := Dsc.C80_describes hp.good p.id
  have h1' : Dsc.describe p.job.env p.job.id p.job.text = .ok P := h1
  unfold Job.sent at h
  rw [h1'] at h
  simp only [if_true] at h
  split at h
  · rename_i out' ho
    simp only [Option.some.injEq] at h
    subst h
    obtain ⟨q, st, h4, h5, -⟩ := Metadata.C14_revert_roundtrip (Dsc.good_describes hp.good hp.fits h2) hp.path.1 hp.path.2 ho rest c0
    refine ⟨metaOf q, ?_, ?_, ?_⟩
    · unfold parsed; rw [h4]
    · simp [metaOf, h5.type]
    · exact h5.id.trans h2.id
  · simp at h

/-! ### The process fits -/

theorem old_addr {p : Plan} {m₀ F slot} (hf : p.Fits m₀ F slot) {u : UnitM} {f : Str × Str} (hm : f ∈ funcs p.d.entries)
    (hu : MUnit p.t u f) :
    (worldOf p.objs p.prog p.w).oldSym (getBasename p.t.name) u.oldName u.oldAddr = p.old f.1 := by
  obtain ⟨h1, h0, -, h2, -⟩ := hf.funcs f hm
  obtain ⟨s, hs, hn, ho⟩ := hu.2.2
  have he : u.oldAddr = offsetOf p.t f.1 := by rw [← ho]; exact h1 s hs hn
  have := (SymLoad.C68_named_library_partial p.prog (getBasename p.t.name) u.oldName u.oldAddr p.before p.after p.target hf.name
    (by rw [he]; exact h0) hf.before hf.target hf.vdso hf.tables (by rw [he]; exact h2)).1
  show (SymLoad.getLoadedSymbolAddr p.objs p.prog _ _ _).1 = _
  rw [Plan.objs, this, he]
  rfl

theorem mem_of_all2 {α β} {R : α → β → Prop} {l : List α} {k : List β} (h : All₂ R l k) {a : α} (ha : a ∈ l) : ∃ b ∈ k, R a b :=
  Dsc.mem_all2 h ha

/-- The reference as the user knows it. -/
def toLink (r : RefM) : Link := ⟨r.tls, r.refName, r.patchOff, r.targetOff⟩

theorem link_of {p : Plan} {m₀ F slot} (hf : p.Fits m₀ F slot) {r : RefM} {x : Entry} (hx : x ∈ refs p.d.entries)
    (h : MRef p.t p.c r x) : p.link x = some (toLink r) ∧ toLink r ∈ p.links := by
  have hx' : x ∈ p.d.entries := by simp only [refs, List.mem_filter] at hx; exact hx.1
  have he : p.link x = some (toLink r) := by
    cases x with
    | ref tls tn rn =>
      obtain ⟨h1, h2, h3, ⟨s, hs, hn, ho⟩, s', hs', hn', ho'⟩ := h
      obtain ⟨c1, c2⟩ := hf.clear tls tn rn hx'
      simp only at h1 h2 h3 ho ho'
      unfold Plan.link toLink
      rw [h1, h3, ← ho, ← ho', c1 s hs hn, c2 s' hs' hn']
    | refAt tls tn rn a b =>
      obtain ⟨h1, h2, h3, h4, h5⟩ := h
      simp only at h1 h2 h3 h4 h5
      unfold Plan.link toLink
      rw [h1, h3, h4, h5]
    | _ => exact h.elim
  exact ⟨he, List.mem_filterMap.2 ⟨x, hx', he⟩⟩

theorem fits_apply {p : Plan} {m₀ F slot} (hf : p.Fits m₀ F slot) {m : Meta} (hl : m.lib = p.t.name)
    (hu : All₂ (MUnit p.t) m.units (funcs p.d.entries)) (hr : All₂ (MRef p.t p.c) m.refs.reverse (refs p.d.entries)) :
    Runtime.Spec.Fits m₀ F slot (.apply (worldOf p.objs p.prog p.w) (.ok m)) := by
  intro _
  refine ⟨?_, ?_⟩
  · intro u hu'
    obtain ⟨f, hfm, hfu⟩ := mem_of_all2 hu hu'
    simp only
    rw [hl, old_addr hf hfm hfu]
    obtain ⟨-, -, h1, -, h3, h4, h5⟩ := hf.funcs f hfm
    have hn : (worldOf p.objs p.prog p.w).newSym u.newName = p.new f.2 := by
      show p.w.newSym _ = _
      rw [hfu.2.1, h3]
    rw [hn]
    exact .inr ⟨h1, h4, h5⟩
  · intro r hr' so hso
    obtain ⟨x, hx, hxr⟩ := mem_of_all2 hr (a := r) (by simpa using hr')
    obtain ⟨hl1, hl2⟩ := link_of hf hx hxr
    exact hf.links _ hl2 so hso

theorem patch_apply {p : Plan} {m₀ F slot} (hf : p.Fits m₀ F slot) {m : Meta} (hi : m.id = p.id) (hl : m.lib = p.t.name)
    (hu : All₂ (MUnit p.t) m.units (funcs p.d.entries)) (hd : m.deps = p.deps.reverse) :
    patchOf (worldOf p.objs p.prog p.w) m = p.patch := by
  unfold patchOf Plan.patch
  rw [hi, hl, hd]
  congr 1
  refine map_eq_of_all2 hu fun u f hfm hfu => ?_
  rw [old_addr hf hfm hfu]
  have hn : (worldOf p.objs p.prog p.w).newSym u.newName = p.new f.2 := by
    show p.w.newSym _ = _
    rw [hfu.2.1, (hf.funcs f hfm).2.2.2.2.1]
  rw [hn]

/-! ### The invariant -/

theorem fill_eq (buf out : Bytes) : fill buf out = out ++ buf.drop out.length := rfl

theorem str_append {s rest : Str} (h : 0 ∉ s) : str (s ++ [0] ++ rest) = s := by
  unfold str
  induction s with
  | nil => rfl
  | cons c cs ih =>
    simp only [List.mem_cons, not_or] at h
    simp only [List.cons_append, List.takeWhile_cons]
    have : (c != 0) = true := by simpa using Ne.symm h.1
    rw [this]
    simp only [if_true]
    simpa using ih h.2

theorem note_ne {ps : List Patch} {o : Order} {a : Nat} (h : a ≠ 0) : note ps o a = ps := by
  obtain ⟨n, rfl⟩ := Nat.exists_eq_succ_of_ne_zero h
  cases o <;> rfl

theorem track_ne {ps : List Patch} {r : Request} {a : Nat} (h : a ≠ 0) : track ps r a = ps := by
  obtain ⟨n, rfl⟩ := Nat.exists_eq_succ_of_ne_zero h
  rcases r with ⟨w, e | m⟩ | _ | _ | _ <;> rfl

theorem step_inv {m₀ F slot} (hI : Image m₀ F slot) {fuel : Nat} {s s' : Proc} {o : Order} {a : Nat} {ps : List Patch}
    (ho : o.Ok m₀ F slot) (hs : Runtime.Inv m₀ F slot s.rt ps) (h : step fuel s o.act = some (s', a)) :
    Runtime.Inv m₀ F slot s'.rt (note ps o a) := by
  cases o with
  | apply p =>
    obtain ⟨hp, hf⟩ := ho
    simp only [Order.act, step] at h
    split at h
    · simp only [Option.some.injEq, Prod.mk.injEq] at h
      obtain ⟨rfl, rfl⟩ := h
      exact hs
    · rename_i out hout
      unfold deliver at h
      obtain ⟨m, h1, h2, h3, h4, h5, h6, h7⟩ := sent_apply hp hout (s.buf.drop out.length) p.c0
      rw [fill_eq, h1] at h
      simp only at h
      split at h
      · simp at h
      · rename_i rt b hb
        simp only [Option.some.injEq, Prod.mk.injEq] at h
        obtain ⟨rfl, rfl⟩ := h
        have := Runtime.serve_inv hI (fits_apply hf h4 h5 h7) hs hb
        by_cases hb0 : b = 0
        · subst hb0
          simp only [track, if_pos h2, patch_apply hf h3 h4 h5 h6] at this
          exact this
        · rw [track_ne hb0] at this
          rw [note_ne hb0]
          exact this
  | revert p =>
    have hp : p.Packable := ho
    simp only [Order.act, step] at h
    split at h
    · simp only [Option.some.injEq, Prod.mk.injEq] at h
      obtain ⟨rfl, rfl⟩ := h
      exact hs
    · rename_i out hout
      unfold deliver at h
      obtain ⟨m, h1, h2, h3⟩ := sent_revert hp hout (s.buf.drop out.length) p.c0
      rw [fill_eq, h1] at h
      simp only at h
      split at h
      · simp at h
      · rename_i rt b hb
        simp only [Option.some.injEq, Prod.mk.injEq] at h
        obtain ⟨rfl, rfl⟩ := h
        have := Runtime.serve_inv hI (F := F) (slot := slot) (m₀ := m₀) (by intro h1; omega) hs hb
        by_cases hb0 : b = 0
        · subst hb0
          simp only [track, h2] at this
          simp only [note]
          simpa [h3] using this
        · rw [track_ne hb0] at this
          rw [note_ne hb0]
          exact this
  | revertAll objs prog w lib =>
    simp only [Order.act, step] at h
    split at h
    · simp only [Option.some.injEq, Prod.mk.injEq] at h
      obtain ⟨rfl, rfl⟩ := h
      exact hs
    · have he : str (fill s.buf (lib ++ [0])) = lib := str_append ho
      simp only [ask, he] at h
      cases hb : serve fuel s.rt (.revertAll (worldOf objs prog w) lib) with
      | none => rw [hb] at h; simp at h
      | some x =>
        rw [hb] at h
        simp only [Option.map_some, Option.some.injEq, Prod.mk.injEq] at h
        obtain ⟨rfl, rfl⟩ := h
        have := Runtime.serve_inv hI (show Runtime.Spec.Fits m₀ F slot (.revertAll _ _) from trivial) hs hb
        by_cases hb0 : x.2 = 0
        · rw [hb0] at this ⊢
          exact this
        · rw [track_ne hb0] at this
          rw [note_ne hb0]
          exact this
  | check id =>
    simp only [Order.act, step, ask] at h
    simp only [serve, Option.map_some, Option.some.injEq, Prod.mk.injEq] at h
    obtain ⟨rfl, rfl⟩ := h
    simpa [note] using hs
  | toggle =>
    simp only [Order.act, step] at h
    cases hb : serve fuel s.rt .toggle with
    | none => rw [hb] at h; simp at h
    | some x =>
      rw [hb] at h
      simp only [Option.map_some, Option.some.injEq, Prod.mk.injEq] at h
      obtain ⟨rfl, rfl⟩ := h
      have := Runtime.serve_inv hI (show Runtime.Spec.Fits m₀ F slot .toggle from trivial) hs hb
      simpa [note, track] using this

theorem run_inv {m₀ F slot} (hI : Image m₀ F slot) {fuel : Nat} (os : List Order) (ho : ∀ o ∈ os, o.Ok m₀ F slot) {s s' : Proc}
    {as : List Nat} {ps : List Patch} (hs : Runtime.Inv m₀ F slot s.rt ps) (h : run fuel s (os.map Order.act) = some (s', as)) :
    Runtime.Inv m₀ F slot s'.rt (noteAll ps os as) := by
  induction os generalizing s as ps with
  | nil =>
    simp only [List.map_nil, run, Option.some.injEq, Prod.mk.injEq] at h
    obtain ⟨rfl, rfl⟩ := h
    exact hs
  | cons o os ih =>
    simp only [List.map_cons, run] at h
    split at h
    · simp at h
    · rename_i s1 r h1
      cases h2 : run fuel s1 (os.map Order.act) with
      | none => rw [h2] at h; simp at h
      | some x =>
        rw [h2] at h
        simp only [Option.map_some, Option.some.injEq, Prod.mk.injEq] at h
        obtain ⟨rfl, rfl⟩ := h
        exact ih (fun o ho' => ho o (by simp [ho'])) (step_inv hI (ho o (by simp)) hs h1) (by rw [h2])

/-- A process that was just started, with the memory `m`. -/
def started (m : Mem) : Proc := ⟨State.init m, blank⟩

/-! ### C115: functions -/

/-- **C115** From the text of descriptions to calls: after any history of applying and reverting packed live patches, of
reverting all patches of a library, of checks and of enabling and disabling, as long as no internal error was
recorded, a call of any live-patchable function goes to the function that the newest description still applied
names for it, or else to the function's own body. -/
theorem C115_calls_follow_descriptions {m₀ : Mem} {F slot : Nat → Prop} (hI : Image m₀ F slot) (fuel : Nat) (os : List Order)
    (ho : ∀ o ∈ os, o.Ok m₀ F slot) (s : Proc) (as : List Nat) (h : run fuel (started m₀) (os.map Order.act) = some (s, as))
    (hh : healthy s.rt.err) (f : Nat) (hf : F f) :
    callDest s.rt.mem f = some ((replacement (noteAll [] os as) f).getD (body m₀ f)) :=
  ((run_inv hI os ho (Runtime.init_inv hI) h).good hh).calls hI.range f hf

/-! ### C116: references -/

theorem links_eq {p : Plan} {m₀ F slot} (hf : p.Fits m₀ F slot) {rs : List RefM} (h : All₂ (MRef p.t p.c) rs (refs p.d.entries)) :
    rs.map toLink = p.links := by
  have h1 : ∀ es : List Entry, es.filterMap p.link = (refs es).filterMap p.link := by
    intro es
    induction es with
    | nil => rfl
    | cons e es ih =>
      cases e <;> simp [refs, Plan.link] at ih ⊢ <;> exact ih
  unfold Plan.links
  rw [h1]
  have h2 : ∀ (rs : List RefM) (es : List Entry), (∀ e ∈ es, e ∈ refs p.d.entries) → All₂ (MRef p.t p.c) rs es →
      rs.map toLink = es.filterMap p.link := by
    intro rs
    induction rs with
    | nil =>
      intro es _ h
      have := h.1
      cases es with
      | nil => rfl
      | cons => simp at this
    | cons r rs ih =>
      intro es he h
      cases es with
      | nil => have := h.1; simp at this
      | cons e es =>
        have h0 := h.2 0 (by simp) (by simp)
        simp only [List.getElem_cons_zero] at h0
        rw [List.filterMap_cons, (link_of hf (he e (by simp)) h0).1, List.map_cons]
        simp only
        rw [ih es (fun e' h' => he e' (by simp [h'])) ⟨by have := h.1; simpa using this, fun i h1 h2 => by
          have := h.2 (i + 1) (by simpa using h1) (by simpa using h2)
          simpa using this⟩]
  exact h2 rs _ (fun _ h => h) h

/-- Where libpulp finds the target. -/
theorem target_found {p : Plan} {m₀ F slot} (hf : p.Fits m₀ F slot) :
    (worldOf p.objs p.prog p.w).libBase (getBasename p.t.name) = p.target.bias ∧
    (worldOf p.objs p.prog p.w).tlsIdx (getBasename p.t.name) = p.target.tls := by
  have hs : SymLoad.searchName p.prog (getBasename p.t.name) = getBasename p.t.name := by simp [SymLoad.searchName, hf.name]
  have hm : SymLoad.Mentions (getBasename p.t.name) p.target := by
    rw [SymLoad.Mentions, ← hf.target]; exact SymLoad.basename_infix _
  obtain ⟨r', hr, -⟩ := SymLoad.base_skip (getBasename p.t.name) p.before (p.target :: p.after) (0, some 0) hf.before
  refine ⟨?_, ?_⟩
  · show SymLoad.baseAddr p.objs p.prog _ = _
    rw [SymLoad.baseAddr, hs, Plan.objs, hr, SymLoad.base_hit _ _ _ _ hf.vdso hm]
  · show (SymLoad.tlsIndex p.objs p.prog _).getD _ = _
    rw [SymLoad.tlsIndex, hs, Plan.objs, hr, SymLoad.base_hit _ _ _ _ hf.vdso hm]
    rfl

/-- **C116** Once a description has been applied, every reference in it holds the address at which the process has the
variable it names: the load address of the target plus the offset of the variable in the target (or the given one);
for a thread-local variable, the number of the target's TLS block and the offset in it. -/
theorem C116_references_point_at_variables {m₀ : Mem} {F slot : Nat → Prop} (hI : Image m₀ F slot) (fuel : Nat) (os : List Order)
    (ho : ∀ o ∈ os, o.Ok m₀ F slot) (s : Proc) (as : List Nat) (h : run fuel (started m₀) (os.map Order.act) = some (s, as))
    (p : Plan) (hp : p.Packable) (hf : p.Fits m₀ F slot) (so : Nat) (hso : p.w.soBase = some so)
    (hdis : p.links.Pairwise fun a b => p.slotAt so a + a.size ≤ p.slotAt so b ∨ p.slotAt so b + b.size ≤ p.slotAt so a)
    (s' : Proc) (h' : step fuel s (Order.apply p).act = some (s', 0)) (hh : healthy s'.rt.err) (l : Link) (hl : l ∈ p.links) :
    if l.tls then
      leVal (s'.rt.mem.load (p.slotAt so l) 8) = p.target.tls % 2 ^ 64 ∧
      leVal (s'.rt.mem.load (p.slotAt so l + 8) 8) = l.points % 2 ^ 64
    else leVal (s'.rt.mem.load (p.slotAt so l) 8) = (p.target.bias + l.points) % 2 ^ 64 := by
  have hi := run_inv hI os ho (Runtime.init_inv hI) h
  simp only [Order.act, step] at h'
  split at h'
  · simp [notSent, EUNKNOWN] at h'
  · rename_i out hout
    unfold deliver at h'
    obtain ⟨m, h1, h2, h3, h4, h5, h6, h7⟩ := sent_apply hp hout (s.buf.drop out.length) p.c0
    rw [fill_eq, h1] at h'
    simp only at h'
    split at h'
    · simp at h'
    · rename_i rt b hb
      simp only [Option.some.injEq, Prod.mk.injEq] at h'
      obtain ⟨rfl, rfl⟩ := h'
      have hm := links_eq hf h7
      rw [← hm] at hl
      obtain ⟨r, hr, rfl⟩ := List.mem_map.1 hl
      have key := Runtime.references_of_inv hI fuel s.rt _ hi _ m h2 (fits_apply hf h4 h5 h7) so hso ?_ rt hb hh r (by simpa using hr)
      · rw [h4, (target_found hf).1, (target_found hf).2] at key
        exact key
      · rw [← hm, List.pairwise_map, List.pairwise_reverse] at hdis
        refine hdis.imp ?_
        intro a b hab
        exact hab.symm

/-! ### C117: acceptance -/

/-- **C117** After any history, if no error is recorded and nothing stands in the way, applying a well-formed description
succeeds, and records no error. -/
theorem C117_accepted {m₀ : Mem} {F slot : Nat → Prop} (hI : Image m₀ F slot) (fuel : Nat) (os : List Order)
    (ho : ∀ o ∈ os, o.Ok m₀ F slot) (s : Proc) (as : List Nat) (h : run fuel (started m₀) (os.map Order.act) = some (s, as))
    (he : s.rt.err = ENONE) (p : Plan) (hp : p.Packable) (hf : p.Fits m₀ F slot) (hr : p.Ready (noteAll [] os as)) :
    ∃ s', step fuel s (Order.apply p).act = some (s', 0) ∧ s'.rt.err = ENONE := by
  have hi := run_inv hI os ho (Runtime.init_inv hI) h
  have hg := hi.good (.inl he)
  obtain ⟨out, hout⟩ := sent_isSome hp hr.small
  obtain ⟨m, h1, h2, h3, h4, h5, h6, h7⟩ := sent_apply hp hout (s.buf.drop out.length) p.c0
  obtain ⟨so, hso, hso0⟩ := hr.base
  have hids : ∀ q : Runtime.Applied, q ∈ s.rt.patches → ∃ q' ∈ noteAll [] os as, q'.id = q.id := by
    intro q hq
    rw [← hg.shown]
    exact ⟨_, List.mem_map_of_mem hq, rfl⟩
  have hacc := loadPatch_accepts (w := worldOf p.objs p.prog p.w) (m := m) (s := s.rt) h2 hr.buildId hr.loads ?_ ?_ ?_ ?_ ?_ hso hso0 ?_
  · obtain ⟨rt, hs, hs'⟩ := serve_accepts (w := worldOf p.objs p.prog p.w) (fuel := fuel) hi.clean he hr.idle hacc
    simp only [Order.act, step, hout, deliver]
    rw [fill_eq, h1]
    simp only
    rw [hs]
    exact ⟨_, rfl, hs'⟩
  · intro d hd
    rw [h6] at hd
    obtain ⟨q, hq, e⟩ := hr.deps d (by simpa using hd)
    rw [← hg.shown] at hq
    obtain ⟨q', hq', rfl⟩ := List.mem_map.1 hq
    exact ⟨q', hq', e⟩
  · intro q hq
    obtain ⟨q', h1', h2'⟩ := hids q hq
    rw [h3, ← h2']
    exact hr.fresh q' h1'
  · intro u hu
    obtain ⟨f, hfm, hfu⟩ := mem_of_all2 h5 hu
    rw [h4, old_addr hf hfm hfu]
    obtain ⟨-, -, hF, -, hn, -⟩ := hf.funcs f hfm
    refine ⟨?_, ?_, (hg.ready hI.range _ hF).1⟩
    · have := (hI.range _ hF).1
      omega
    · show p.w.newSym _ ≠ 0
      rw [hfu.2.1, hn]
      exact hr.funcs f hfm
  · intro r hr' h0
    obtain ⟨x, hx, hxr⟩ := mem_of_all2 h7 (a := r) (by simpa using hr')
    exact hr.names _ (link_of hf hx hxr).2 h0
  · rw [h4, (target_found hf).1]
    exact hr.bias
  · rw [hi.clean.size, Nat.zero_add]
    have hu : m.units.length + m.refs.length ≤ p.d.entries.length := by
      have e1 := h5.1
      have e2 := h7.1
      rw [List.length_reverse] at e2
      rw [e1, e2]
      have h1 : ∀ es : List Entry, (funcs es).length + (refs es).length ≤ es.length := by
        intro es
        induction es with
        | nil => simp [funcs, refs]
        | cons e es ih =>
          cases e <;> simp [funcs, refs] at ih ⊢ <;> omega
      exact h1 _
    have hc : 40 * p.d.entries.length ≤ (p.d.entries.map cost).sum := by
      generalize p.d.entries = es
      induction es with
      | nil => simp
      | cons e es ih => simp only [List.length_cons, List.map_cons, List.sum_cons, cost] at ih ⊢; omega
    have := hr.small.2
    unfold InsnQueue.bufMax
    omega

/-- **C117** Likewise for reverting a patch that is applied and on which no other depends. -/
theorem C117_revert_accepted {m₀ : Mem} {F slot : Nat → Prop} (hI : Image m₀ F slot) (fuel : Nat) (os : List Order)
    (ho : ∀ o ∈ os, o.Ok m₀ F slot) (s : Proc) (as : List Nat) (h : run fuel (started m₀) (os.map Order.act) = some (s, as))
    (he : s.rt.err = ENONE) (p : Plan) (hp : p.Packable) (hs : p.Small) (hb : p.w.busy = false)
    (hin : ∃ q ∈ noteAll [] os as, q.id = p.id) (hdep : ∀ q ∈ noteAll [] os as, p.id ∉ q.deps) :
    ∃ s', step fuel s (Order.revert p).act = some (s', 0) := by
  have hi := run_inv hI os ho (Runtime.init_inv hI) h
  obtain ⟨out, hout⟩ := sent_revert_isSome hp hs
  obtain ⟨m, h1, h2, h3⟩ := sent_revert hp hout (s.buf.drop out.length) p.c0
  obtain ⟨rt, hr⟩ := Runtime.revert_accepted_of_inv hI fuel s.rt _ hi he (worldOf p.objs p.prog p.w) hb m h2 (by rw [h3]; exact hin)
    (by rw [h3]; exact hdep)
  simp only [Order.act, step, hout, deliver]
  rw [fill_eq, h1]
  simp only
  rw [hr]
  exact ⟨_, rfl⟩

/-! ### Examples -/

/-- A library with two functions and a variable, -/
def demoLib : SoInfo := ⟨"libfoo.so".toUTF8.toList, List.replicate 20 7, [⟨"f".toUTF8.toList, 0x800, 10, 0, 0⟩,
  ⟨"g".toUTF8.toList, 0x1800, 20, 0, 0⟩, ⟨"v".toUTF8.toList, 0x900, 8, 0, 0⟩]⟩

/-- and a live patch for it. -/
def demoLp : SoInfo := ⟨"lp.so".toUTF8.toList, List.replicate 20 8, [⟨"f_new".toUTF8.toList, 0x1300, 10, 0, 0⟩,
  ⟨"g_new".toUTF8.toList, 0x1400, 10, 0, 0⟩, ⟨"v_ref".toUTF8.toList, 0x1000, 8, 0, 0⟩]⟩

def demoEnv : Dsc.Env := ⟨fun n => if n = "/lp".toUTF8.toList then some ⟨false, [0x7f, 0x45], some demoLp⟩
  else if n = "/lib".toUTF8.toList then some ⟨false, [0x7f, 0x45], some demoLib⟩ else none, none, none⟩

def demoA : Desc := ⟨[], "/lp".toUTF8.toList, [], [none], "/lib".toUTF8.toList,
  [.func "f".toUTF8.toList "f_new".toUTF8.toList, .func "g".toUTF8.toList "g_new".toUTF8.toList,
   .ref false "v".toUTF8.toList "v_ref".toUTF8.toList]⟩

example : demoA.render = "/lp\n\n@/lib\nf:f_new\ng:g_new\n#v:v_ref\n".toUTF8.toList := by decide +kernel

/-- The library is loaded at 0x800, the live patch at 0x4000. -/
def demoFoo : SymLoad.Obj := SymLoad.demoObj "/usr/lib64/libfoo.so" 0x800 3 "foo"

def demoW : World where
  busy := false
  buildIdOk := true
  dlopenOk := true
  oldSym := fun _ _ _ => 0
  newSym := fun n => 0x4000 + offsetOf demoLp n
  libBase := fun _ => 0
  tlsIdx := fun _ => 0
  soBase := some 0x4000

def demoPlan : Plan := ⟨demoA, demoEnv, demoLp, demoLib, [], List.replicate 32 5, "/lp.so".toUTF8.toList, [SymLoad.demoMain], demoFoo, [],
  SymLoad.demoProg, demoW, 0x4000, []⟩

theorem demo_packable : demoPlan.Packable where
  good := {
    noLivepatch := rfl
    noTarget := rfl
    head := by decide +kernel
    mid := by decide +kernel
    container := ⟨by decide +kernel, Dsc.path_demo (by decide +kernel), by decide +kernel⟩
    containerFile := ⟨⟨false, [0x7f, 0x45], some demoLp⟩, by decide +kernel, rfl, rfl⟩
    target := ⟨Dsc.path_demo (by decide +kernel), by decide +kernel⟩
    targetFile := ⟨⟨false, [0x7f, 0x45], some demoLib⟩, by decide +kernel, rfl, rfl⟩
    depPaths := by intro s hs; simp [demoPlan, demoA] at hs
    depFiles := Dsc.all2_nil _
    entries := by
      intro x hx
      simp only [demoPlan, demoA, List.mem_cons, List.not_mem_nil, or_false] at hx
      rcases hx with rfl | rfl | rfl
      · exact ⟨Dsc.name_demo (by decide +kernel), Dsc.name_demo (by decide +kernel), by decide +kernel, by unfold Dsc.Spec.Has; decide +kernel, by unfold Dsc.Spec.Has; decide +kernel⟩
      · exact ⟨Dsc.name_demo (by decide +kernel), Dsc.name_demo (by decide +kernel), by decide +kernel, by unfold Dsc.Spec.Has; decide +kernel, by unfold Dsc.Spec.Has; decide +kernel⟩
      · exact ⟨Dsc.name_demo (by decide +kernel), Dsc.name_demo (by decide +kernel), by decide +kernel, by unfold Dsc.Spec.Has; decide +kernel, by unfold Dsc.Spec.Has; decide +kernel⟩ }
  fits := ⟨by decide +kernel, by decide +kernel, ⟨by decide +kernel, by decide +kernel⟩, by decide +kernel, by decide +kernel, by decide +kernel⟩
  path := ⟨by decide +kernel, by decide +kernel⟩

theorem demo_links : demoPlan.links = [⟨false, "v_ref".toUTF8.toList, 0x1000, 0x900⟩] := by decide +kernel

theorem demo_plan_fits : demoPlan.Fits Runtime.demoMem Runtime.demoF Runtime.demoSlot where
  name := by decide +kernel
  before := by
    intro o h
    rw [List.mem_singleton.1 h]
    left
    rw [SymLoad.Mentions, ← SymLoad.strstr_iff]; decide +kernel
  target := by decide +kernel
  vdso := by decide +kernel
  tables := SymLoad.demoObj_tables _ _ _ _
  funcs := by
    have h : funcs demoPlan.d.entries = [("f".toUTF8.toList, "f_new".toUTF8.toList), ("g".toUTF8.toList, "g_new".toUTF8.toList)] := by decide +kernel
    rw [h]
    intro f hf
    simp only [List.mem_cons, List.not_mem_nil, or_false] at hf
    rcases hf with rfl | rfl
    · exact ⟨by unfold Clear; decide +kernel, by decide +kernel, .inl (by decide +kernel), by decide +kernel, by decide +kernel, by decide +kernel,
        by rw [inPad, Runtime.demo_body]; decide +kernel⟩
    · exact ⟨by unfold Clear; decide +kernel, by decide +kernel, .inr (by decide +kernel), by decide +kernel, by decide +kernel, by decide +kernel,
        by rw [inPad, Runtime.demo_body]; decide +kernel⟩
  clear := by
    intro tls tn rn h
    simp only [demoPlan, demoA, List.mem_cons, List.not_mem_nil, or_false, Entry.ref.injEq, reduceCtorEq, false_or] at h
    obtain ⟨rfl, rfl, rfl⟩ := h
    exact ⟨by unfold Clear; decide +kernel, by unfold Clear; decide +kernel⟩
  links := by
    rw [demo_links]
    intro l hl so hso
    rw [List.mem_singleton.1 hl]
    have hs : so = 0x4000 := by
      have : demoPlan.w.soBase = some 0x4000 := rfl
      rw [this] at hso
      exact (Option.some.inj hso).symm
    subst hs
    simp only [Plan.slotAt, Link.size, Runtime.demoSlot]
    exact ⟨by decide, by intro i h1 h2; simp at h1 h2; omega⟩

theorem demo_ready (ps : List Patch) (h : ∀ q ∈ ps, q.id ≠ demoPlan.id) : demoPlan.Ready ps where
  idle := rfl
  buildId := rfl
  loads := rfl
  deps := by intro d hd; simp [demoPlan] at hd
  fresh := h
  funcs := by decide +kernel
  names := by rw [demo_links]; decide +kernel
  base := ⟨0x4000, rfl, by decide⟩
  bias := by decide +kernel
  small := ⟨by decide +kernel, by decide +kernel⟩

/-- The description is applied: a call of `f` goes to `f_new`, one of `g` to `g_new`, and the reference in the live patch
holds the address of the variable. -/
example : ∃ s, run 1 (started Runtime.demoMem) [(Order.apply demoPlan).act] = some (s, [0]) ∧
    callDest s.rt.mem 0x1000 = some 0x5300 ∧ callDest s.rt.mem 0x2000 = some 0x5400 ∧
    leVal (s.rt.mem.load 0x5000 8) = 0x1100 := by
  obtain ⟨s, h1, h2⟩ := C117_accepted Runtime.demo_image 1 [] (by simp) (started Runtime.demoMem) [] rfl rfl demoPlan demo_packable
    demo_plan_fits (demo_ready _ (by simp [noteAll]))
  have hr : run 1 (started Runtime.demoMem) ([Order.apply demoPlan].map Order.act) = some (s, [0]) := by
    simp only [List.map_cons, List.map_nil, run, h1, Option.map_some]
  refine ⟨s, hr, ?_, ?_, ?_⟩
  · rw [C115_calls_follow_descriptions Runtime.demo_image 1 _ (by simpa [Order.Ok] using ⟨demo_packable, demo_plan_fits⟩) s _ hr (.inl h2) _ (.inl rfl)]
    decide +kernel
  · rw [C115_calls_follow_descriptions Runtime.demo_image 1 _ (by simpa [Order.Ok] using ⟨demo_packable, demo_plan_fits⟩) s _ hr (.inl h2) _ (.inr rfl)]
    decide +kernel
  · exact C116_references_point_at_variables Runtime.demo_image 1 [] (by simp) (started Runtime.demoMem) [] rfl demoPlan demo_packable
      demo_plan_fits 0x4000 rfl (by rw [demo_links]; simp) s h1 (.inl h2) ⟨false, "v_ref".toUTF8.toList, 0x1000, 0x900⟩ (by rw [demo_links]; simp)

/-- It is reverted again: calls go to the bodies of the functions. -/
example : ∃ s, run 1 (started Runtime.demoMem) [(Order.apply demoPlan).act, (Order.revert demoPlan).act] = some (s, [0, 0]) ∧
    (healthy s.rt.err → callDest s.rt.mem 0x1000 = some 0x1002) := by
  obtain ⟨s, h1, h2⟩ := C117_accepted Runtime.demo_image 1 [] (by simp) (started Runtime.demoMem) [] rfl rfl demoPlan demo_packable
    demo_plan_fits (demo_ready _ (by simp [noteAll]))
  have ho : ∀ o ∈ [Order.apply demoPlan], o.Ok Runtime.demoMem Runtime.demoF Runtime.demoSlot := by
    simpa [Order.Ok] using ⟨demo_packable, demo_plan_fits⟩
  have hr : run 1 (started Runtime.demoMem) ([Order.apply demoPlan].map Order.act) = some (s, [0]) := by
    simp only [List.map_cons, List.map_nil, run, h1, Option.map_some]
  obtain ⟨s', h3⟩ := C117_revert_accepted Runtime.demo_image 1 _ ho s [0] hr h2 demoPlan demo_packable (demo_ready [] (by simp)).small rfl
    ⟨demoPlan.patch, by simp [noteAll, note], rfl⟩ (by simp [noteAll, note, Plan.patch, demoPlan])
  have hr' : run 1 (started Runtime.demoMem) ([Order.apply demoPlan, Order.revert demoPlan].map Order.act) = some (s', [0, 0]) := by
    simp only [List.map_cons, List.map_nil, run, h1, h3, Option.map_some]
  refine ⟨s', hr', fun hh => ?_⟩
  rw [C115_calls_follow_descriptions Runtime.demo_image 1 _ (by simpa [Order.Ok] using ⟨⟨demo_packable, demo_plan_fits⟩, demo_packable⟩) s' _ hr' hh _ (.inl rfl)]
  decide +kernel

/-- **C117**, the converse: after any history, bytes in which `parse_metadata_from_mem` finds an error, from whichever
container they come, are refused with that error; the process is as it was, and its buffer is blank again. -/
theorem C117_malformed_refused {m₀ : Mem} {F slot : Nat → Prop} (hI : Image m₀ F slot) (fuel : Nat) (os : List Order)
    (ho : ∀ o ∈ os, o.Ok m₀ F slot) (s : Proc) (as : List Nat) (h : run fuel (started m₀) (os.map Order.act) = some (s, as))
    (he : s.rt.err = ENONE) (out : Bytes) (w : Runtime.World) (hb : w.busy = false) (c0 : Bytes) (e : Err)
    (hp : Metadata.parse ⟨out ++ s.buf.drop out.length, fun _ _ => true⟩ c0 = .err e) :
    deliver fuel s out w c0 = some (⟨s.rt, List.replicate (512 * 1024) 0⟩, e) := by
  have hi : Runtime.Spec.Idle s.rt := (run_inv hI os ho (Runtime.init_inv hI) h).clean
  unfold deliver parsed
  rw [show fill s.buf out = out ++ s.buf.drop out.length from rfl, hp]
  simp only [Runtime.C25_unreadable_refused fuel s.rt hi he w hb e, Runtime.gate_clean hi, he, hb, ne_eq, not_true_eq_false, if_false,
    Bool.false_eq_true, Option.isSome_none]
  rfl

/-- The error, if any. -/
def errOf {α : Type} : Metadata.Res α → Option Err
  | .err e => some e
  | _ => none

theorem errOf_eq {α : Type} {r : Metadata.Res α} {e : Err} (h : errOf r = some e) : r = .err e := by
  cases r <;> simp_all [errOf]

theorem demo_empty_path : Metadata.parse ⟨[1] ++ (started Runtime.demoMem).buf.drop 1, fun _ _ => true⟩ [] = .err EINVALIDULP :=
  errOf_eq (by decide +kernel)

/-- A container whose path is empty. -/
example : deliver 1 (started Runtime.demoMem) [1] Runtime.demoWorld [] =
    some (⟨(started Runtime.demoMem).rt, List.replicate (512 * 1024) 0⟩, EINVALIDULP) :=
  C117_malformed_refused Runtime.demo_image 1 [] (by simp) (started Runtime.demoMem) [] rfl rfl [1] Runtime.demoWorld rfl [] EINVALIDULP
    demo_empty_path

end Verif.Flow
