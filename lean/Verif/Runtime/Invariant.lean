import Verif.Runtime.Lemmas

/-! The invariant of the runtime and its preservation by every request. -/

namespace Verif.Runtime

open Spec
open Verif.InsnQueue (Req Holds touches Queue)
open Verif.InsnQueue.Spec (perform)

def toPatch (p : Applied) : Patch := { id := p.id, lib := p.lib, deps := p.deps.reverse, repl := p.units }

/-- Replacements of `f` by the patches `ps`, newest first. -/
def stack (ps : List Applied) (f : Nat) : List (Id × Nat) :=
  ps.flatMap fun p => ((p.units.filter (fun u => u.1 = f)).map (fun u => (p.id, u.2))).reverse

/-- Every patch depends only on patches below it. -/
def DepsOk : List Applied → Prop
  | [] => True
  | p :: ps => (∀ d ∈ p.deps, ∃ p' ∈ ps, p'.id = d) ∧ DepsOk ps

/-- Invariant while no internal error has been recorded; `vm` is the memory once the queue has been
executed, `ps` the bookkeeping of the user. -/
structure Good (m₀ : Mem) (F : Nat → Prop) (s : State) (vm : Mem) (ps : List Patch) : Prop where
  shown : s.patches.map toPatch = ps
  ids : (s.patches.map (fun p => p.id)).Nodup
  libs : ∀ p ∈ s.patches, p.lib.length ≤ pathLen
  deps : DepsOk s.patches
  nodup : (s.roots.map (fun r => r.addr)).Nodup
  inF : ∀ r ∈ s.roots, F r.addr
  targets : ∀ f, ∀ d ∈ stackOf s.roots f, d.target < 2 ^ 64 ∧ ¬ inPad m₀ f d.target
  stacks : ∀ f, ((stackOf s.roots f).filter (fun d => d.active)).map (fun d => (d.id, d.target)) = stack s.patches f
  entries : ∀ f, F f → Entry vm (X86.hasEndbr m₀ f) f (top (stackOf s.roots f))
  univs : ∀ f, (stackOf s.roots f).Pairwise (fun a b => b.univ ≤ a.univ) ∧
    ∀ d ∈ stackOf s.roots f, d.univ ≤ s.univ

/-- The bookkeeping is a set with satisfied dependencies. -/
structure Book (ps : List Patch) : Prop where
  ids : (ps.map (fun p => p.id)).Nodup
  deps : ∀ p ∈ ps, ∀ d ∈ p.deps, ∃ q ∈ ps, q.id = d

/-- Everything that may ever be written. -/
def area (m₀ : Mem) (F slot : Nat → Prop) (i : Nat) : Prop := (∃ f, F f ∧ inPad m₀ f i) ∨ slot i

structure Inv (m₀ : Mem) (F slot : Nat → Prop) (s : State) (ps : List Patch) : Prop where
  clean : Idle s
  book : Book ps
  frame : ∀ i, ¬ area m₀ F slot i → s.mem i = m₀ i
  good : healthy s.err → Good m₀ F s s.mem ps

/-! ### small facts -/

theorem DepsOk.mem {ps : List Applied} (h : DepsOk ps) : ∀ p ∈ ps, ∀ d ∈ p.deps, ∃ q ∈ ps, q.id = d := by
  induction ps with
  | nil => simp
  | cons p ps ih =>
    intro x hx d hd
    rcases List.mem_cons.mp hx with rfl | hx
    · obtain ⟨q, hq, e⟩ := h.1 d hd; exact ⟨q, by simp [hq], e⟩
    · obtain ⟨q, hq, e⟩ := ih h.2 x hx d hd; exact ⟨q, by simp [hq], e⟩

theorem Good.book {m₀ F s vm ps} (h : Good m₀ F s vm ps) : Book ps := by
  rw [← h.shown]
  refine ⟨by rw [List.map_map]; exact h.ids, ?_⟩
  intro p hp d hd
  obtain ⟨p', hp', rfl⟩ := List.mem_map.mp hp
  simp only [toPatch, List.mem_reverse] at hd
  obtain ⟨q, hq, e⟩ := h.deps.mem p' hp' d hd
  exact ⟨toPatch q, List.mem_map.mpr ⟨q, hq, rfl⟩, e⟩


theorem head?_reverse_map {α β} (l : List α) (g : α → β) :
    (l.map g).reverse.head? = l.getLast?.map g := by
  rw [List.head?_reverse, List.getLast?_map]

theorem replacement_stack (ps : List Applied) (f) :
    replacement (ps.map toPatch) f = (stack ps f).head?.map (fun x => x.2) := by
  induction ps with
  | nil => rfl
  | cons p ps ih =>
    simp only [List.map_cons, replacement, stack, List.flatMap_cons, toPatch]
    rw [List.head?_append]
    cases h : (p.units.filter (fun u => u.1 = f)).getLast? with
    | none => rw [head?_reverse_map, h]; simpa [stack] using ih
    | some u => rw [head?_reverse_map, h]; rfl

theorem top_filter (ds : List Detour) :
    top ds = ((ds.filter (fun d => d.active)).map (fun d => (d.id, d.target))).head?.map (fun x => x.2) := by
  unfold top
  rw [← List.head?_filter]
  cases ds.filter (fun d => d.active) <;> rfl

theorem Good.top {m₀ F s vm ps} (h : Good m₀ F s vm ps) (f) : Runtime.top (stackOf s.roots f) = replacement ps f := by
  rw [top_filter, h.stacks f, ← h.shown, replacement_stack]

theorem Good.ready {m₀ F s vm ps} (h : Good m₀ F s vm ps) (hF : ∀ f, F f → 14 ≤ f ∧ f + 6 < 2 ^ 64) (f) (hf : F f) :
    X86.patchable vm f = true ∧ X86.hasEndbr vm f = X86.hasEndbr m₀ f :=
  (h.entries f hf).ready (hF f hf).1

theorem top_mem {ds : List Detour} {g} (h : top ds = some g) : ∃ d ∈ ds, d.target = g := by
  unfold top at h
  cases hf : ds.find? (fun d => d.active) with
  | none => simp [hf] at h
  | some d => simp [hf] at h; exact ⟨d, List.mem_of_find?_eq_some hf, h⟩

/-- Calls in a good state. -/
theorem Good.calls {m₀ F s vm ps} (h : Good m₀ F s vm ps) (hF : ∀ f, F f → 14 ≤ f ∧ f + 6 < 2 ^ 64)
    (f) (hf : F f) :
    X86.Spec.callDest vm f = some ((replacement ps f).getD (X86.Spec.body m₀ f)) := by
  have he := h.entries f hf
  rw [← h.top f, X86.body_eq]
  cases ht : Runtime.top (stackOf s.roots f) with
  | none =>
    rw [ht] at he
    exact X86.callDest_plain (hF f hf).1 (hF f hf).2 he
  | some g =>
    rw [ht] at he
    obtain ⟨d, hd, rfl⟩ := top_mem ht
    have := h.targets f d hd
    refine X86.callDest_redirected (hF f hf).1 (hF f hf).2 this.1 ?_ he
    have h2 := this.2
    rw [inPad_iff] at h2
    unfold pad at h2
    simp only [Option.getD_some]
    omega

theorem stack_filter (ps : List Applied) (id : Id) (f) :
    stack (ps.filter (fun p => p.id ≠ id)) f = (stack ps f).filter (fun x => x.1 ≠ id) := by
  induction ps with
  | nil => rfl
  | cons p ps ih =>
    have hs : stack (p :: ps) f =
      ((p.units.filter (fun u => u.1 = f)).map (fun u => (p.id, u.2))).reverse ++ stack ps f := rfl
    rw [hs, List.filter_append, ← ih]
    by_cases h : p.id = id
    · have : (p :: ps).filter (fun p => p.id ≠ id) = ps.filter (fun p => p.id ≠ id) := by simp [h]
      rw [this]
      have h2 : (((p.units.filter (fun u => u.1 = f)).map (fun u => (p.id, u.2))).reverse).filter
          (fun x => x.1 ≠ id) = [] := by
        rw [List.filter_eq_nil_iff]
        intro x hx
        simp only [List.mem_reverse, List.mem_map] at hx
        obtain ⟨u, _, rfl⟩ := hx
        simp [h]
      rw [h2]; rfl
    · have : (p :: ps).filter (fun p => p.id ≠ id) = p :: ps.filter (fun p => p.id ≠ id) := by simp [h]
      rw [this]
      have h2 : (((p.units.filter (fun u => u.1 = f)).map (fun u => (p.id, u.2))).reverse).filter
          (fun x => x.1 ≠ id) = ((p.units.filter (fun u => u.1 = f)).map (fun u => (p.id, u.2))).reverse := by
        rw [List.filter_eq_self]
        intro x hx
        simp only [List.mem_reverse, List.mem_map] at hx
        obtain ⟨u, _, rfl⟩ := hx
        simpa using h
      rw [h2]; rfl

theorem eraseP_filter {ps : List Applied} (id : Id) (h : (ps.map (fun p => p.id)).Nodup) :
    ps.eraseP (fun p => p.id == id) = ps.filter (fun p => p.id ≠ id) := by
  induction ps with
  | nil => rfl
  | cons p ps ih =>
    simp only [List.map_cons, List.nodup_cons] at h
    by_cases hp : p.id = id
    · have : ps.filter (fun p => p.id ≠ id) = ps := by
        rw [List.filter_eq_self]
        intro q hq
        have : q.id ≠ id := fun hc => h.1 (List.mem_map.mpr ⟨q, hq, hc.trans hp.symm⟩)
        simpa using this
      have h2 : (p :: ps).filter (fun p => p.id ≠ id) = ps.filter (fun p => p.id ≠ id) := by simp [hp]
      rw [h2, this, List.eraseP_cons]
      simp [hp]
    · have hih := ih h.2
      simp [hp, List.eraseP_cons, hih]

theorem stackOf_map (g : List Detour → List Detour) (rs : List Root) (f) (hg : g [] = []) :
    stackOf (rs.map (fun r => { r with detours := g r.detours })) f = g (stackOf rs f) := by
  induction rs with
  | nil => simp [stackOf, hg]
  | cons r rs ih =>
    simp only [List.map_cons, stackOf]
    split
    · rfl
    · exact ih

theorem stackOf_root {rs : List Root} {r} (hn : (rs.map (fun r => r.addr)).Nodup) (hr : r ∈ rs) :
    stackOf rs r.addr = r.detours := by
  induction rs with
  | nil => simp at hr
  | cons x rs ih =>
    simp only [List.map_cons, List.nodup_cons] at hn
    simp only [stackOf]
    rcases List.mem_cons.mp hr with rfl | hr
    · simp
    · have : x.addr ≠ r.addr := fun hc => hn.1 (List.mem_map.mpr ⟨r, hr, hc.symm⟩)
      rw [if_neg this, ih hn.2 hr]

theorem depsOk_filter {ps : List Applied} {id : Id} (h : DepsOk ps)
    (hd : ∀ p ∈ ps, ∀ d ∈ p.deps, d ≠ id) : DepsOk (ps.filter (fun p => p.id ≠ id)) := by
  induction ps with
  | nil => trivial
  | cons p ps ih =>
    obtain ⟨h1, h2⟩ := h
    have ih' := ih h2 (fun p hp => hd p (by simp [hp]))
    by_cases hp : p.id = id
    · simpa [hp] using ih'
    · have : (p :: ps).filter (fun p => p.id ≠ id) = p :: ps.filter (fun p => p.id ≠ id) := by simp [hp]
      rw [this]
      refine ⟨fun d hdp => ?_, ih'⟩
      obtain ⟨p', hp', rfl⟩ := h1 d hdp
      have := hd p (by simp) _ hdp
      exact ⟨p', by simp [hp', this], rfl⟩

/-! ### apply -/

/-- Performing the unit writes in order. -/
theorem unitWrites_entry {F : Nat → Prop} {e0 : Nat → Bool} {mk : Nat × Nat → Detour}
    (hmk : ∀ u, (mk u).active = true ∧ (mk u).target = u.2)
    (hF : ∀ f, F f → 14 ≤ f ∧ f + 6 < 2 ^ 64)
    (hdis : ∀ f g i, F f → F g → pad (e0 f) f i → pad (e0 g) g i → f = g)
    (f) (hf : F f) (res : List (Nat × Nat)) (hres : ∀ u ∈ res, F u.1) (m : Mem) (D : List Detour)
    (h : Entry m (e0 f) f (top D)) :
    Entry (perform m (res.map fun u => entryWrite (e0 u.1) u.1 (some u.2))) (e0 f) f
      (top (((res.filter (fun u => u.1 = f)).map mk).reverse ++ D)) := by
  induction res generalizing m D with
  | nil => simpa [perform] using h
  | cons u res ih =>
    have hl : (u :: res).map (fun u => entryWrite (e0 u.1) u.1 (some u.2)) =
      [entryWrite (e0 u.1) u.1 (some u.2)] ++ res.map (fun u => entryWrite (e0 u.1) u.1 (some u.2)) := rfl
    rw [hl, perform_append]
    have hres' : ∀ u ∈ res, F u.1 := fun u hu => hres u (by simp [hu])
    by_cases hu : u.1 = f
    · have h1 : Entry (perform m [entryWrite (e0 u.1) u.1 (some u.2)]) (e0 f) f (top (mk u :: D)) := by
        rw [hu]
        have := entryWrite_entry (some u.2) (hF f hf).1 h
        simpa [top, (hmk u).1, (hmk u).2] using this
      have := ih hres' _ _ h1
      simpa [hu] using this
    · have h1 : Entry (perform m [entryWrite (e0 u.1) u.1 (some u.2)]) (e0 f) f (top D) := by
        refine Entry.congr (hF f hf).1 ?_ h
        intro i hi
        refine (perform_inSet (entryWrite_inSet (hF u.1 (hres u (by simp))).1) ?_).symm
        intro hi'
        exact hu (hdis u.1 f i (hres u (by simp)) hf hi' hi)
      have := ih hres' _ _ h1
      simpa [hu] using this

theorem unitWrites_inSet {F : Nat → Prop} {e0 : Nat → Bool} (hF : ∀ f, F f → 14 ≤ f ∧ f + 6 < 2 ^ 64)
    (res : List (Nat × Nat)) (hres : ∀ u ∈ res, F u.1) :
    InSet (fun i => ∃ f, F f ∧ pad (e0 f) f i) (res.map fun u => entryWrite (e0 u.1) u.1 (some u.2)) := by
  intro w hw i hi
  obtain ⟨u, hu, rfl⟩ := List.mem_map.mp hw
  exact ⟨u.1, hres u hu, entryWrite_inSet (x := some u.2) (hF _ (hres u hu)).1 _ (by simp) i hi⟩

theorem image_pads {m₀ F slot} (hI : Image m₀ F slot) :
    ∀ f g i, F f → F g → pad (X86.hasEndbr m₀ f) f i → pad (X86.hasEndbr m₀ g) g i → f = g := by
  intro f g i hf hg h1 h2
  exact hI.disjoint f g i hf hg ((inPad_iff _ _ _).mpr h1) ((inPad_iff _ _ _).mpr h2)

theorem fits_units {m₀ F slot w m} (hfit : Fits m₀ F slot (.apply w (.ok m))) (ht : m.type = 1) :
    ∀ u ∈ resolved w m.lib m.units, u.1 = 0 ∨ (F u.1 ∧ u.2 < 2 ^ 64 ∧ ¬ inPad m₀ u.1 u.2) := by
  intro u hu
  obtain ⟨x, hx, rfl⟩ := List.mem_map.mp hu
  exact (hfit ht).1 x hx

theorem sanity_zero {w m} {s : State} (h : sanity w m s = 0) :
    depsOk s m.deps = true ∧ getApplied s m.id = none := by
  unfold sanity at h
  split at h
  · simp [EBUILDID] at h
  split at h
  · simp [EDEPEND] at h
  split at h
  · simp [EAPPLIED] at h
  · simp_all

theorem patchOf_resolved (w m) : (patchOf w m).repl = resolved w m.lib m.units := rfl

/-- The apply path of `load_patch` when it succeeds. -/
theorem loadPatch_apply_ok {m₀ F slot w m s s' ps} (hI : Image m₀ F slot)
    (hfit : Fits m₀ F slot (.apply w (.ok m))) (ht : m.type = 1)
    (hg : Good m₀ F s s.mem ps) (h : loadPatch w m s = (s', 0)) :
    ∃ ws, Emits s s' ws ∧ InSet (area m₀ F slot) ws ∧ Good m₀ F s' (perform s.mem ws) (patchOf w m :: ps) ∧
      s'.univ = s.univ + 1 ∧
      ∃ so, w.soBase = some so ∧ ws = (resolved w m.lib m.units).map
          (fun u => entryWrite (X86.hasEndbr m₀ u.1) u.1 (some u.2)) ++
        m.refs.map (fun r => .write (refAddr w so r)
          (refBytes (w.libBase (getBasename m.lib)) (w.tlsIdx (getBasename m.lib)) r)) := by
  unfold loadPatch at h
  simp only [ht] at h
  rw [if_neg (show ¬ (1 : Nat) = 2 by decide)] at h
  split at h
  · rename_i hc; simp only [Prod.mk.injEq] at h; exact absurd h.2 hc
  rename_i hs
  simp only [ne_eq, Decidable.not_not] at hs
  split at h
  · simp [EDLOPEN] at h
  rw [if_pos trivial] at h
  obtain ⟨hdeps, hna⟩ := sanity_zero hs
  unfold stateUpdate at h
  cases hr : resolveUnits w m.lib m.units with
  | none => simp [hr, ESTATE] at h
  | some res =>
  obtain ⟨rfl, hnz⟩ := resolveUnits_some hr
  rw [hr] at h
  simp only [Option.map_some] at h
  generalize hs1 : ({ s with patches := { id := m.id, lib := (getBasename m.lib).take pathLen, container := m.soName.take pathLen, deps := m.deps.reverse, units := resolved w m.lib m.units } :: s.patches } : State) = s1 at h
  unfold applyAllUnits at h
  generalize hp : applyUnits w m.lib m.id m.units { s1 with univ := s1.univ + 1 } = p at h
  obtain ⟨s2, e⟩ := p
  simp only at h
  by_cases he : e ≠ 0
  · simp [he] at h
  have he : e = 0 := Decidable.not_not.mp he
  subst he
  simp only [ne_eq, not_true_eq_false, if_false] at h
  split at h
  · simp [ENOADDRESS] at h
  cases hso : w.soBase with
  | none => simp [hso, EUNKNOWN] at h
  | some so =>
  simp only [hso] at h
  split at h
  · simp [ENOADDRESS] at h
  generalize hq : applyRefs w (w.libBase (getBasename m.lib)) (w.tlsIdx (getBasename m.lib)) so m.refs s2 = q at h
  obtain ⟨s3, e⟩ := q
  simp only at h
  by_cases he : e ≠ 0
  · simp [he] at h
  have he : e = 0 := Decidable.not_not.mp he
  subst he
  simp only [not_true_eq_false, if_false, Prod.mk.injEq, and_true] at h
  subst h
  have hfu := fits_units hfit ht
  have hready := hg.ready hI.range
  have hs1' : s1.mem = s.mem ∧ s1.q = s.q ∧ s1.err = s.err ∧ s1.univ = s.univ ∧ s1.roots = s.roots ∧
      s1.patches = { id := m.id, lib := (getBasename m.lib).take pathLen, container := m.soName.take pathLen, deps := m.deps.reverse, units := resolved w m.lib m.units } :: s.patches := by
    rw [← hs1]; simp
  obtain ⟨a1, a2, a3, a4, a5, a6⟩ := hs1'
  obtain ⟨b1, b2, b3, b4, b5, b6, b7⟩ := applyUnits_ok (F := F) (e0 := X86.hasEndbr m₀) hI.range m.units _ s2 hp
    (by simp only [a1]; exact hready)
    (fun u hu => (hfu u hu).imp id (fun h => h.1))
  obtain ⟨c1, c2, c3, c4⟩ := applyRefs_ok m.refs s2 s3 hq (fun r hr => ((hfit ht).2 r hr so hso).1)
  simp only at b2 b3 b4 b5 b6
  have hslot : InSet slot (m.refs.map fun r => .write (refAddr w so r)
      (refBytes (w.libBase (getBasename m.lib)) (w.tlsIdx (getBasename m.lib)) r)) := by
    intro x hx i hi
    obtain ⟨r, hr, rfl⟩ := List.mem_map.mp hx
    simp only [touches, refBytes_length] at hi
    exact ((hfit ht).2 r hr so hso).2 i hi.1 hi.2
  have hunits := unitWrites_inSet (e0 := X86.hasEndbr m₀) hI.range _ b7
  refine ⟨_, (b1.of_fields (s1 := s) (s1' := s2) a2.symm a1.symm a3.symm rfl rfl rfl).trans c1, ?_, ?_,
    by rw [c3, b3, a4], so, rfl, rfl⟩
  · refine InSet.append (hunits.mono ?_) (hslot.mono fun i hi => Or.inr hi)
    rintro i ⟨f, hf, hi⟩
    exact Or.inl ⟨f, hf, (inPad_iff _ _ _).mpr hi⟩
  have hst : ∀ f, stackOf s3.roots f = (((resolved w m.lib m.units).filter (fun u => u.1 = f)).map
        (fun u => { univ := s.univ + 1, target := u.2, id := m.id, active := true : Detour })).reverse
        ++ stackOf s.roots f := by
    intro f; rw [c4, b4 f, a4, a5]
  have hpat : s3.patches = { id := m.id, lib := (getBasename m.lib).take pathLen, container := m.soName.take pathLen, deps := m.deps.reverse, units := resolved w m.lib m.units } :: s.patches := by
    rw [c2, b2, a6]
  have hun : s3.univ = s.univ + 1 := by rw [c3, b3, a4]
  refine ⟨?_, ?_, ?_, ?_, ?_, ?_, ?_, ?_, ?_, ?_⟩
  · rw [hpat, List.map_cons, hg.shown]
    simp only [toPatch, List.reverse_reverse]; rfl
  · rw [hpat, List.map_cons, List.nodup_cons]
    refine ⟨?_, hg.ids⟩
    intro hc
    obtain ⟨p, hp, hpid⟩ := List.mem_map.mp hc
    unfold getApplied at hna
    rw [List.find?_eq_none] at hna
    exact hna p hp (by simpa using hpid)
  · intro p hp
    rw [hpat] at hp
    rcases List.mem_cons.mp hp with rfl | hp
    · simp only [List.length_take]; omega
    · exact hg.libs p hp
  · rw [hpat]
    refine ⟨?_, hg.deps⟩
    intro d hd
    simp only [List.mem_reverse] at hd
    unfold depsOk at hdeps
    rw [List.all_eq_true] at hdeps
    have := hdeps d hd
    rw [List.any_eq_true] at this
    obtain ⟨p, hp, hpd⟩ := this
    exact ⟨p, hp, by simpa using hpd⟩
  · rw [c4]; apply b6; simp only [a5]; exact hg.nodup
  · intro r hr
    rw [c4] at hr
    have := (b5 r.addr).mp (List.mem_map.mpr ⟨r, hr, rfl⟩)
    rcases this with h | h
    · obtain ⟨u, hu, hur⟩ := List.mem_map.mp h
      rw [← hur]; exact b7 u hu
    · simp only [a5] at h
      obtain ⟨r', hr', hrr⟩ := List.mem_map.mp h
      rw [← hrr]; exact hg.inF r' hr'
  · intro f d hd
    rw [hst f] at hd
    rcases List.mem_append.mp hd with h | h
    · simp only [List.mem_reverse, List.mem_map, List.mem_filter, decide_eq_true_eq] at h
      obtain ⟨u, ⟨hu, huf⟩, rfl⟩ := h
      rcases hfu u hu with h0 | h0
      · exact absurd h0 (hnz u hu)
      · rw [← huf]; exact h0.2
    · exact hg.targets f d h
  · intro f
    rw [hst f, hpat, List.filter_append, List.map_append, hg.stacks f]
    simp only [stack, List.flatMap_cons]
    congr 1
    rw [← List.map_reverse, ← List.map_reverse, List.filter_map]
    simp [Function.comp_def]
  · intro f hf
    rw [perform_append, hst f]
    have h1 := unitWrites_entry (e0 := X86.hasEndbr m₀) (mk := fun u => { univ := s.univ + 1, target := u.2, id := m.id, active := true })
      (fun u => ⟨rfl, rfl⟩) hI.range (image_pads hI) f hf (resolved w m.lib m.units) b7 s.mem
      (stackOf s.roots f) (hg.entries f hf)
    refine Entry.congr (hI.range f hf).1 ?_ h1
    intro i hi
    refine (perform_inSet hslot ?_).symm
    exact hI.slots f i hf ((inPad_iff _ _ _).mpr hi)
  · intro f
    rw [hst f, hun]
    refine ⟨?_, ?_⟩
    · rw [List.pairwise_append]
      refine ⟨?_, (hg.univs f).1, ?_⟩
      · rw [List.pairwise_reverse, List.pairwise_map]
        exact List.Pairwise.imp (fun _ => Nat.le_refl _) (List.pairwise_of_forall (R := fun _ _ => True) (fun _ _ => trivial))
      · intro a ha b hb
        simp only [List.mem_reverse, List.mem_map] at ha
        obtain ⟨u, _, rfl⟩ := ha
        have := (hg.univs f).2 b hb
        simp only; omega
    · intro d hd
      rcases List.mem_append.mp hd with h | h
      · simp only [List.mem_reverse, List.mem_map] at h
        obtain ⟨u, _, rfl⟩ := h
        exact Nat.le_refl _
      · have := (hg.univs f).2 d h; omega

/-! ### revert -/

theorem canRevert_zero {s : State} {id} (h : canRevert s id = 0) :
    (∃ p ∈ s.patches, p.id = id) ∧ ∀ p ∈ s.patches, ∀ d ∈ p.deps, d ≠ id := by
  unfold canRevert at h
  split at h
  · simp [ENOTAPPLIED] at h
  rename_i h1
  split at h
  · simp [EDEPEND] at h
  rename_i h2
  refine ⟨?_, ?_⟩
  · cases hga : getApplied s id with
    | none => simp [hga] at h1
    | some p =>
      unfold getApplied at hga
      exact ⟨p, List.mem_of_find?_eq_some hga, by simpa using List.find?_some hga⟩
  · intro p hp d hd hc
    apply h2
    rw [List.any_eq_true]
    exact ⟨p, hp, by rw [List.any_eq_true]; exact ⟨d, hd, by simpa using hc⟩⟩

theorem deact_filter (id : Id) (ds : List Detour) :
    ((ds.map (deact id)).filter (fun d => d.active)).map (fun d => (d.id, d.target)) =
    ((ds.filter (fun d => d.active)).map (fun d => (d.id, d.target))).filter (fun x => x.1 ≠ id) := by
  induction ds with
  | nil => rfl
  | cons d ds ih =>
    by_cases h : d.id = id
    · cases ha : d.active <;> simp_all [deact]
    · cases ha : d.active <;> simp_all [deact]

/-- `ulp_revert_patch` in a good state. -/
theorem revertPatch_ok {m₀ F slot s vm ps id} (hI : Image m₀ F slot) (hg : Good m₀ F s vm ps)
    (hready : ∀ f, F f → X86.patchable s.mem f = true ∧ X86.hasEndbr s.mem f = X86.hasEndbr m₀ f)
    (hc : canRevert s id = 0) :
    (revertPatch s id).2 = 0 ∧ ∃ ws, Emits s (revertPatch s id).1 ws ∧
      InSet (fun i => ∃ f, F f ∧ inPad m₀ f i) ws ∧
      Good m₀ F (revertPatch s id).1 (perform vm ws) (ps.filter (fun p => p.id ≠ id)) ∧
      (revertPatch s id).1.univ = s.univ + 1 ∧
      (revertPatch s id).1.patches = s.patches.filter (fun p => p.id ≠ id) := by
  obtain ⟨⟨p, hp, hpid⟩, hdep⟩ := canRevert_zero hc
  obtain ⟨ws, w1, w2, w3⟩ := revertRoots_ok (id := id) (e0 := X86.hasEndbr m₀) s.roots { s with univ := s.univ + 1 }
    (fun r hr => hI.range _ (hg.inF r hr)) (fun r hr => hready _ (hg.inF r hr)) hg.nodup
    (fun r hr r' hr' i => image_pads hI _ _ i (hg.inF r hr) (hg.inF r' hr'))
  obtain ⟨f1, f2, f3, f4, f5⟩ := revertRoots_fields id s.roots { s with univ := s.univ + 1 }
  unfold revertPatch stateRemove
  simp only
  generalize hrr : revertRoots id s.roots { s with univ := s.univ + 1 } = rr at *
  obtain ⟨s2, rs⟩ := rr
  simp only at f1 f2 f3 f4 f5 w1 ⊢
  have hany : s2.patches.any (fun p => p.id == id) = true := by
    rw [f1, List.any_eq_true]; exact ⟨p, hp, by simpa using hpid⟩
  rw [hany]
  have her : s2.patches.eraseP (fun p => p.id == id) = s.patches.filter (fun p => p.id ≠ id) := by
    rw [f1]; exact eraseP_filter id hg.ids
  have hst : ∀ f, stackOf rs f = (stackOf s.roots f).map (deact id) := by
    intro f; rw [f5]; exact stackOf_map (fun ds => ds.map (deact id)) s.roots f rfl
  have hent : ∀ f, F f → Entry (perform vm ws) (X86.hasEndbr m₀ f) f (top ((stackOf s.roots f).map (deact id))) := by
    intro f hf
    by_cases hm : f ∈ s.roots.map (fun r => r.addr)
    · obtain ⟨r, hr, rfl⟩ := List.mem_map.mp hm
      rw [stackOf_root hg.nodup hr]
      refine w3 vm ?_ r hr
      intro r' hr'
      have := hg.entries r'.addr (hg.inF r' hr')
      rwa [stackOf_root hg.nodup hr'] at this
    · have h0 := stackOf_none hm
      have := hg.entries f hf
      rw [h0] at this ⊢
      refine Entry.congr (hI.range f hf).1 ?_ this
      intro i hi
      refine (perform_inSet w2 ?_).symm
      rintro ⟨r, hr, hri⟩
      exact hm (List.mem_map.mpr ⟨r, hr, image_pads hI _ _ i (hg.inF r hr) hf hri hi⟩)
  refine ⟨rfl, ws, w1.of_fields rfl rfl rfl rfl rfl rfl, ?_, ?_, f3, her⟩
  · refine w2.mono ?_
    rintro i ⟨r, hr, hi⟩
    exact ⟨r.addr, hg.inF r hr, (inPad_iff _ _ _).mpr hi⟩
  refine ⟨?_, ?_, ?_, ?_, ?_, ?_, ?_, ?_, ?_, ?_⟩
  · simp only [her]
    rw [← hg.shown, List.filter_map]
    rfl
  · simp only [her]
    exact hg.ids.sublist (List.filter_sublist.map _)
  · intro q hq
    simp only [her] at hq
    exact hg.libs q (List.mem_filter.mp hq).1
  · simp only [her]
    exact depsOk_filter hg.deps hdep
  · simp only [f5, List.map_map]
    exact hg.nodup
  · intro r hr
    simp only [f5] at hr
    obtain ⟨r', hr', rfl⟩ := List.mem_map.mp hr
    exact hg.inF r' hr'
  · intro f d hd
    simp only [hst f] at hd
    obtain ⟨d', hd', rfl⟩ := List.mem_map.mp hd
    have := hg.targets f d' hd'
    unfold deact
    split <;> exact this
  · intro f
    simp only [hst f, her]
    rw [deact_filter, hg.stacks f, stack_filter]
  · intro f hf
    simp only [hst f]
    exact hent f hf
  · intro f
    simp only [hst f, f3]
    have hu : ∀ d, (deact id d).univ = d.univ := by
      intro d; unfold deact; split <;> rfl
    refine ⟨?_, ?_⟩
    · rw [List.pairwise_map]
      simpa only [hu] using (hg.univs f).1
    · intro d hd
      obtain ⟨d', hd', rfl⟩ := List.mem_map.mp hd
      rw [hu]
      have := (hg.univs f).2 d' hd'
      omega

/-! ### revert-all -/

/-- If a node cannot be reverted, the loop never ends. -/
theorem revertAllLoop_stuck {base : Str} {p rest s} (hl : base.take pathLen = p.lib.take pathLen)
    (hc : canRevert s p.id ≠ 0) (fuel ret) : revertAllLoop base fuel (p :: rest) ret s = none := by
  induction fuel generalizing ret with
  | zero => rfl
  | succ n ih =>
    rw [revertAllLoop, if_pos hl]
    simp only [hc, ne_eq, not_false_eq_true, if_true]
    exact ih _

theorem revertAllLoop_ok {m₀ F slot base} (hI : Image m₀ F slot) (fuel : Nat) (rem : List Applied) (ret : Err)
    (s : State) (vm ps) (hg : Good m₀ F s vm ps)
    (hready : ∀ f, F f → X86.patchable s.mem f = true ∧ X86.hasEndbr s.mem f = X86.hasEndbr m₀ f)
    (hrem : ∀ p ∈ rem, p.lib.length ≤ pathLen) (hnd : (rem.map (fun p => p.id)).Nodup)
    (s' a) (h : revertAllLoop base fuel rem ret s = some (s', a)) :
    ∃ ws, Emits s s' ws ∧ InSet (fun i => ∃ f, F f ∧ inPad m₀ f i) ws ∧
      Good m₀ F s' (perform vm ws)
        (ps.filter (fun q => ∀ p ∈ rem, p.lib = base.take pathLen → q.id ≠ p.id)) ∧
      s'.univ = s.univ + (rem.filter (fun p => p.lib = base.take pathLen)).length ∧
      ((∃ p ∈ rem, p.lib = base.take pathLen) → a = 0) ∧
      ((∀ p ∈ rem, p.lib ≠ base.take pathLen) → a = ret ∧ s' = s) := by
  induction fuel generalizing rem ret s vm ps with
  | zero =>
    cases rem with
    | nil =>
      simp only [revertAllLoop, Option.some.injEq, Prod.mk.injEq] at h
      obtain ⟨rfl, rfl⟩ := h
      refine ⟨[], Emits.refl _, by simp [InSet], ?_, by simp, by simp, by simp⟩
      have : ps.filter (fun q => ∀ p ∈ ([] : List Applied), p.lib = base.take pathLen → q.id ≠ p.id) = ps := by
        rw [List.filter_eq_self]; simp
      rw [this]; exact hg
    | cons p rest => simp [revertAllLoop] at h
  | succ fuel ih =>
    cases rem with
    | nil =>
      simp only [revertAllLoop, Option.some.injEq, Prod.mk.injEq] at h
      obtain ⟨rfl, rfl⟩ := h
      refine ⟨[], Emits.refl _, by simp [InSet], ?_, by simp, by simp, by simp⟩
      have : ps.filter (fun q => ∀ p ∈ ([] : List Applied), p.lib = base.take pathLen → q.id ≠ p.id) = ps := by
        rw [List.filter_eq_self]; simp
      rw [this]; exact hg
    | cons p rest =>
      have hpl : p.lib.take pathLen = p.lib := List.take_of_length_le (hrem p (by simp))
      simp only [List.map_cons, List.nodup_cons] at hnd
      by_cases hl : base.take pathLen = p.lib.take pathLen
      · by_cases hc : canRevert s p.id ≠ 0
        · rw [revertAllLoop_stuck hl hc] at h; simp at h
        have hc : canRevert s p.id = 0 := Decidable.not_not.mp hc
        rw [revertAllLoop, if_pos hl] at h
        simp only [hc, ne_eq, not_true_eq_false, if_false] at h
        obtain ⟨r0, w1, e1, i1, g1, u1, p1⟩ := revertPatch_ok hI hg hready hc
        generalize hrp : revertPatch s p.id = rp at *
        obtain ⟨s1, e⟩ := rp
        simp only at r0 e1 g1 u1 h p1
        subst r0
        simp only [not_true_eq_false, if_false] at h
        obtain ⟨w2, e2, i2, g2, u2, a2, a3⟩ := ih rest 0 s1 _ _ g1 (by rw [e1.mem]; exact hready)
          (fun p hp => hrem p (by simp [hp])) hnd.2 h
        have hpb : p.lib = base.take pathLen := by rw [hl, hpl]
        refine ⟨w1 ++ w2, e1.trans e2, i1.append i2, ?_, ?_, ?_, ?_⟩
        · rw [perform_append]
          rw [List.filter_filter] at g2
          refine (congrArg (Good m₀ F s' _) (List.filter_congr ?_)) ▸ g2
          intro q _
          by_cases hq : q.id = p.id <;> simp [hq, hpb]
        · rw [u2, u1]
          simp [hpb]; omega
        · intro _
          by_cases hx : ∃ p ∈ rest, p.lib = base.take pathLen
          · exact a2 hx
          · have := a3 (fun p hp hc => hx ⟨p, hp, hc⟩); exact this.1
        · intro hno; exact absurd hpb (hno p (by simp))
      · rw [revertAllLoop, if_neg hl] at h
        obtain ⟨w2, e2, i2, g2, u2, a2, a3⟩ := ih rest ret s vm ps hg hready
          (fun p hp => hrem p (by simp [hp])) hnd.2 h
        have hpb : ¬ p.lib = base.take pathLen := by
          intro hc; apply hl; rw [hpl, hc]
        refine ⟨w2, e2, i2, ?_, ?_, ?_, ?_⟩
        · refine (congrArg (Good m₀ F s' _) (List.filter_congr ?_)) ▸ g2
          intro q _
          simp [hpb]
        · rw [u2]; simp [hpb]
        · rintro ⟨q, hq, hqb⟩
          rcases List.mem_cons.mp hq with rfl | hq
          · exact absurd hqb hpb
          · exact a2 ⟨q, hq, hqb⟩
        · intro hno
          exact a3 (fun q hq => hno q (by simp [hq]))

/-! ### requests -/

theorem Good.congr {m₀ F s s' vm ps} (h : Good m₀ F s vm ps) (h1 : s'.patches = s.patches)
    (h2 : s'.roots = s.roots) (h3 : s'.univ = s.univ) : Good m₀ F s' vm ps :=
  ⟨by rw [h1]; exact h.shown, by rw [h1]; exact h.ids, by rw [h1]; exact h.libs, by rw [h1]; exact h.deps,
   by rw [h2]; exact h.nodup, by rw [h2]; exact h.inF, by rw [h2]; exact h.targets,
   by rw [h1, h2]; exact h.stacks, by rw [h2]; exact h.entries, by rw [h2, h3]; exact h.univs⟩

theorem Spec.Idle.holds {s} (h : Idle s) : Holds s.q [] := holds_empty h.num h.size

theorem settle_clean {s} (h : Idle s) : settle s = s := by
  rw [settle_holds h.holds h.ver]
  obtain ⟨h1, h2, _⟩ := h
  obtain ⟨e, p, r, u, c, q, m⟩ := s
  obtain ⟨v, n, z, b⟩ := q
  simp only at h1 h2
  subst h1 h2
  rfl

theorem gate_clean {s} (h : Idle s) (w : World) :
    gate w s = if s.err ≠ ENONE then (s, some s.err) else if w.busy then (s, some EAGAIN) else (s, none) := by
  unfold gate
  by_cases he : s.err ≠ ENONE
  · rw [if_pos he, if_pos he]
  · rw [if_neg he, if_neg he]
    have : InsnQueue.ensureEmptiness ⟨s.q, s.err⟩ = (⟨s.q, s.err⟩, 0) := by
      unfold InsnQueue.ensureEmptiness
      simp [h.num, h.size]
    rw [this]
    simp

/-- The tool executing what was queued. -/
theorem settle_emits {s s' ws} (hc : Idle s) (h : Emits s s' ws) :
    ∃ ws', ws'.Sublist ws ∧ (s'.err ≠ EINSNQ → ws' = ws) ∧
      settle s' = { s' with mem := perform s.mem ws', q := { s'.q with num := 0, size := 0 } } := by
  obtain ⟨ws', h1, h2, h3⟩ := h.holds [] hc.holds
  refine ⟨ws', h1, h3, ?_⟩
  rw [settle_holds (by simpa using h2) (by rw [h.ver]; exact hc.ver), h.mem]

theorem finish {m₀ F slot s s1 ws ps ps'} (hinv : Inv m₀ F slot s ps) (hem : Emits s s1 ws)
    (hin : InSet (area m₀ F slot) ws) (hg : Good m₀ F s1 (perform s.mem ws) ps') :
    Inv m₀ F slot (settle s1) ps' := by
  obtain ⟨ws', hsub, heq, hs⟩ := settle_emits hinv.clean hem
  refine ⟨?_, hg.book, ?_, ?_⟩
  · rw [hs]; exact ⟨rfl, rfl, by simp only [hem.ver]; exact hinv.clean.ver⟩
  · intro i hi
    rw [hs]
    simp only
    rw [perform_inSet (hin.sublist hsub) hi]
    exact hinv.frame i hi
  · intro hh
    rw [hs] at hh ⊢
    simp only at hh ⊢
    have hne : s1.err ≠ EINSNQ := by
      rcases hh with h | h <;> rw [h] <;> decide
    rw [heq hne]
    exact hg.congr rfl rfl rfl

/-- An internal error was recorded after the writes were queued. -/
theorem finish_bad {m₀ F slot s s1 s2 ps} (hinv : Inv m₀ F slot s ps) (hem : EmitsIn (area m₀ F slot) s s2)
    (h1 : s1.q = s2.q) (h2 : s1.mem = s2.mem) (h3 : ¬ healthy s1.err) :
    Inv m₀ F slot (settle s1) ps := by
  obtain ⟨ws, hem, hin⟩ := hem
  obtain ⟨ws', hsub, hh, _⟩ := hem.holds [] hinv.clean.holds
  have hs := settle_holds (s := s1) (rs := ws') (by rw [h1]; simpa using hh)
    (by rw [h1, hem.ver]; exact hinv.clean.ver)
  refine ⟨?_, hinv.book, ?_, ?_⟩
  · rw [hs]; exact ⟨rfl, rfl, by simp only [h1, hem.ver]; exact hinv.clean.ver⟩
  · intro i hi
    rw [hs]
    simp only
    rw [perform_inSet (hin.sublist hsub) hi, h2, hem.mem]
    exact hinv.frame i hi
  · intro hc
    rw [hs] at hc
    exact absurd hc h3

/-- What a refused `load_patch` leaves behind. -/
theorem loadPatch_refused {w m s s1 e} (h : loadPatch w m s = (s1, e)) (he : e ≠ 0) :
    s1 = s ∨ (m.type = 1 ∧ ∃ s0 s2, stateUpdate w m s = some s0 ∧ applyAllUnits w m s0 = (s2, e) ∧
      s1 = { s2 with err := EUNKNOWN }) := by
  unfold loadPatch at h
  simp only at h
  by_cases h1 : (if m.type = 2 then 0 else sanity w m s) ≠ 0
  · rw [if_pos h1] at h
    exact Or.inl (Prod.mk.inj h).1.symm
  rw [if_neg h1] at h
  by_cases h2 : m.type ≠ 2 ∧ (!w.dlopenOk) = true
  · rw [if_pos h2] at h
    exact Or.inl (Prod.mk.inj h).1.symm
  rw [if_neg h2] at h
  by_cases ht : m.type = 1
  · rw [if_pos ht] at h
    cases hu : stateUpdate w m s with
    | none => rw [hu] at h; exact Or.inl (Prod.mk.inj h).1.symm
    | some s0 =>
      rw [hu] at h
      simp only at h
      by_cases he2 : (applyAllUnits w m s0).2 ≠ 0
      · rw [if_pos he2] at h
        obtain ⟨ha, hb⟩ := Prod.mk.inj h
        exact Or.inr ⟨ht, s0, (applyAllUnits w m s0).1, rfl, by rw [← hb], ha.symm⟩
      · rw [if_neg he2] at h
        exact absurd (Prod.mk.inj h).2.symm he
  rw [if_neg ht] at h
  by_cases ht2 : m.type = 2
  · rw [if_pos ht2] at h
    by_cases hc : canRevert s m.id ≠ 0
    · rw [if_pos hc] at h
      exact Or.inl (Prod.mk.inj h).1.symm
    · rw [if_neg hc] at h
      have hc : canRevert s m.id = 0 := Decidable.not_not.mp hc
      exfalso
      apply he
      obtain ⟨⟨p, hp, hpid⟩, _⟩ := canRevert_zero hc
      have : (revertPatch s m.id).2 = 0 := by
        unfold revertPatch stateRemove
        simp only
        obtain ⟨f1, -⟩ := revertRoots_fields m.id s.roots { s with univ := s.univ + 1 }
        simp only at f1
        rw [f1, if_pos]
        rw [List.any_eq_true]
        exact ⟨p, hp, by simpa using hpid⟩
      rw [h] at this
      exact this
  rw [if_neg ht2] at h
  split at h <;> exact Or.inl (Prod.mk.inj h).1.symm

theorem applyAllUnits_area {m₀ F slot w m s0 s ps} (hI : Image m₀ F slot)
    (hfit : Fits m₀ F slot (.apply w (.ok m))) (ht : m.type = 1) (hg : Good m₀ F s s.mem ps)
    (hm : s0.mem = s.mem) : EmitsIn (area m₀ F slot) s0 (applyAllUnits w m s0).1 := by
  have hfu := fits_units hfit ht
  refine (applyAllUnits_in s0 (fun u hu => (hfu u hu).imp id (fun h => hI.range _ h.1))
    (fun so hso r hr => ((hfit ht).2 r hr so hso).1)).mono ?_
  rintro i (⟨u, hu, hne, hi⟩ | ⟨so, hso, r, hr, h1, h2⟩)
  · rcases hfu u hu with h0 | h0
    · exact absurd h0 hne
    · refine Or.inl ⟨u.1, h0.1, ?_⟩
      rw [inPad_iff] at hi ⊢
      rw [hm, (hg.ready hI.range u.1 h0.1).2] at hi
      exact hi
  · exact Or.inr (((hfit ht).2 r hr so hso).2 i h1 h2)

theorem track_refused {ps r a} (h : a ≠ 0) : track ps r a = ps := by
  unfold track
  split
  · exact absurd rfl h
  · exact absurd rfl h
  · rfl

theorem loadPatch_revert {w m s s1} (h : loadPatch w m s = (s1, 0)) (ht : m.type = 2) :
    canRevert s m.id = 0 ∧ s1 = (revertPatch s m.id).1 := by
  unfold loadPatch at h
  simp only [ht, if_true, ne_eq, not_true_eq_false, false_and, if_false] at h
  rw [if_neg (by decide)] at h
  split at h
  · rename_i hc; exact absurd (Prod.mk.inj h).2 hc
  · rename_i hc
    exact ⟨Decidable.not_not.mp hc, by rw [h]⟩

theorem loadPatch_other {w m s s1 e} (h : loadPatch w m s = (s1, e)) (h1 : m.type ≠ 1) (h2 : m.type ≠ 2) :
    e ≠ 0 := by
  unfold loadPatch at h
  simp only [h1, h2, if_false, ne_eq, not_false_eq_true, true_and] at h
  split at h
  · rename_i hc; rw [← (Prod.mk.inj h).2]; exact hc
  split at h
  · rw [← (Prod.mk.inj h).2]; decide
  split at h
  · rw [← (Prod.mk.inj h).2]; decide
  · rw [← (Prod.mk.inj h).2]; decide

theorem stateUpdate_fields {w m s s0} (h : stateUpdate w m s = some s0) :
    s0.q = s.q ∧ s0.mem = s.mem ∧ s0.err = s.err ∧ s0.univ = s.univ ∧ s0.roots = s.roots := by
  unfold stateUpdate at h
  cases hr : resolveUnits w m.lib m.units with
  | none => simp [hr] at h
  | some us => simp [hr] at h; subst h; exact ⟨rfl, rfl, rfl, rfl, rfl⟩

theorem healthy_enone {e : Err} (h : e = ENONE) : healthy e := Or.inl h

theorem apply_inv {m₀ F slot s ps w m} (hI : Image m₀ F slot) (hfit : Fits m₀ F slot (.apply w m))
    (hinv : Inv m₀ F slot s ps) :
    Inv m₀ F slot (settle (applyPatch w m s).1) (track ps (.apply w m) (applyPatch w m s).2) := by
  unfold applyPatch
  rw [gate_clean hinv.clean]
  by_cases he : s.err ≠ ENONE
  · simp only [if_pos he]
    rw [track_refused (by exact he), settle_clean hinv.clean]
    exact hinv
  simp only [if_neg he]
  have he' : s.err = ENONE := Decidable.not_not.mp he
  cases hb : w.busy with
  | true =>
    simp only [if_true]
    rw [track_refused (by decide), settle_clean hinv.clean]
    exact hinv
  | false =>
  simp only [Bool.false_eq_true, if_false]
  cases m with
  | error e =>
    simp only
    rw [settle_clean hinv.clean]
    exact hinv
  | ok m =>
  simp only
  have hg := hinv.good (Or.inl he')
  generalize hl : loadPatch w m s = p
  obtain ⟨s1, e⟩ := p
  simp only
  by_cases h0 : e = 0
  · subst h0
    by_cases ht : m.type = 1
    · obtain ⟨ws, a1, a2, a3, -⟩ := loadPatch_apply_ok hI hfit ht hg hl
      have : track ps (.apply w (.ok m)) 0 = patchOf w m :: ps := by simp [track, ht]
      rw [this]
      exact finish hinv a1 a2 a3
    · by_cases ht2 : m.type = 2
      · obtain ⟨hc, rfl⟩ := loadPatch_revert hl ht2
        obtain ⟨-, ws, a1, a2, a3, -⟩ := revertPatch_ok hI hg (hg.ready hI.range) hc
        have : track ps (.apply w (.ok m)) 0 = ps.filter (fun p => p.id ≠ m.id) := by simp [track, ht2]
        rw [this]
        exact finish hinv a1 (a2.mono fun i hi => Or.inl hi) a3
      · exact absurd rfl (loadPatch_other hl ht ht2)
  · rw [track_refused h0]
    rcases loadPatch_refused hl h0 with rfl | ⟨ht, s0, s2, hu, ha, rfl⟩
    · rw [settle_clean hinv.clean]; exact hinv
    · obtain ⟨f1, f2, f3, -⟩ := stateUpdate_fields hu
      have hem := applyAllUnits_area hI hfit ht hg f2
      rw [ha] at hem
      exact finish_bad hinv (hem.of_fields f1.symm f2.symm f3.symm rfl rfl rfl) rfl rfl
        (by rintro (h | h) <;> simp [EUNKNOWN, ENONE, EUSRBLOCKED] at h)

theorem inj_of_nodup_map {α β} {g : α → β} {l : List α} (h : (l.map g).Nodup) {a b} (ha : a ∈ l) (hb : b ∈ l)
    (hab : g a = g b) : a = b := by
  induction l with
  | nil => simp at ha
  | cons x l ih =>
    simp only [List.map_cons, List.nodup_cons] at h
    rcases List.mem_cons.mp ha with rfl | ha' <;> rcases List.mem_cons.mp hb with rfl | hb'
    · rfl
    · exact absurd (List.mem_map.mpr ⟨b, hb', hab.symm⟩) h.1
    · exact absurd (List.mem_map.mpr ⟨a, ha', hab⟩) h.1
    · exact ih h.2 ha' hb'

theorem filter_all_lib {ps : List Applied} (hid : (ps.map (fun p => p.id)).Nodup) (key : Str) :
    (ps.map toPatch).filter (fun q => ∀ p ∈ ps, p.lib = key → q.id ≠ p.id) =
    (ps.map toPatch).filter (fun q => q.lib ≠ key) := by
  apply List.filter_congr
  intro q hq
  obtain ⟨q', hq', rfl⟩ := List.mem_map.mp hq
  have hinj : ∀ p ∈ ps, q'.id = p.id → q' = p := by
    intro p hp h
    exact inj_of_nodup_map hid hq' hp h
  apply decide_eq_decide.mpr
  simp only [toPatch]
  constructor
  · intro h hc
    exact h q' hq' hc rfl
  · intro h p hp hpk hc
    rw [hinj p hp hc] at h
    exact h hpk

theorem revertAll_inv {m₀ F slot s ps fuel w lib s' a} (hI : Image m₀ F slot)
    (hinv : Inv m₀ F slot s ps) (h : revertAll fuel w lib s = some (s', a)) :
    Inv m₀ F slot (settle s') (track ps (.revertAll w lib) a) := by
  unfold revertAll at h
  rw [gate_clean hinv.clean] at h
  by_cases he : s.err ≠ ENONE
  · simp only [if_pos he, Option.some.injEq, Prod.mk.injEq] at h
    obtain ⟨rfl, rfl⟩ := h
    rw [track_refused he, settle_clean hinv.clean]
    exact hinv
  simp only [if_neg he] at h
  have he' : s.err = ENONE := Decidable.not_not.mp he
  cases hb : w.busy with
  | true =>
    simp only [hb, if_true, Option.some.injEq, Prod.mk.injEq] at h
    obtain ⟨rfl, rfl⟩ := h
    rw [track_refused (by decide), settle_clean hinv.clean]
    exact hinv
  | false =>
  simp only [hb, Bool.false_eq_true, if_false] at h
  split at h
  · simp only [Option.some.injEq, Prod.mk.injEq] at h
    obtain ⟨rfl, rfl⟩ := h
    rw [track_refused (by decide), settle_clean hinv.clean]
    exact hinv
  have hg := hinv.good (Or.inl he')
  cases hl : revertAllLoop (getBasename lib) fuel s.patches ENOTARGETLIB s with
  | none => simp [hl] at h
  | some p =>
  obtain ⟨s1, e⟩ := p
  obtain ⟨ws, a1, a2, a3, a4, a5, a6⟩ := revertAllLoop_ok hI fuel s.patches ENOTARGETLIB s s.mem ps hg
    (hg.ready hI.range) hg.libs hg.ids s1 e hl
  simp only [hl, Option.map_some, Option.some.injEq] at h
  by_cases hx : ∃ p ∈ s.patches, p.lib = (getBasename lib).take pathLen
  · have := a5 hx
    subst this
    rw [if_neg (by rintro ⟨h, -⟩; simp [ENOTARGETLIB] at h)] at h
    obtain ⟨rfl, rfl⟩ := Prod.mk.inj h
    have ht : track ps (.revertAll w lib) 0 = ps.filter (fun p => p.lib ≠ libKey lib) := by simp [track]
    rw [ht]
    refine finish hinv a1 (a2.mono fun i hi => Or.inl hi) ?_
    rw [← hg.shown] at a3 ⊢
    rw [filter_all_lib hg.ids] at a3
    exact a3
  · obtain ⟨rfl, rfl⟩ := a6 (fun p hp hc => hx ⟨p, hp, hc⟩)
    have hne : a ≠ 0 ∧ s' = s1 := by
      split at h <;> obtain ⟨rfl, rfl⟩ := Prod.mk.inj h <;> exact ⟨by decide, rfl⟩
    rw [hne.2, track_refused hne.1, settle_clean hinv.clean]
    exact hinv

theorem toggle_inv {m₀ F slot s ps} (hinv : Inv m₀ F slot s ps) : Inv m₀ F slot (toggle s).1 ps := by
  unfold toggle
  simp only
  split
  · rename_i h
    exact ⟨⟨hinv.clean.num, hinv.clean.size, hinv.clean.ver⟩, hinv.book, hinv.frame, fun _ => (hinv.good (Or.inl h)).congr rfl rfl rfl⟩
  split
  · rename_i h
    exact ⟨⟨hinv.clean.num, hinv.clean.size, hinv.clean.ver⟩, hinv.book, hinv.frame, fun _ => (hinv.good (Or.inr h)).congr rfl rfl rfl⟩
  · exact hinv

theorem serve_inv {m₀ F slot s ps fuel r s' a} (hI : Image m₀ F slot) (hfit : Fits m₀ F slot r)
    (hinv : Inv m₀ F slot s ps) (h : serve fuel s r = some (s', a)) :
    Inv m₀ F slot s' (track ps r a) := by
  cases r with
  | apply w m =>
    simp only [serve, Option.some.injEq, Prod.mk.injEq] at h
    obtain ⟨rfl, rfl⟩ := h
    exact apply_inv hI hfit hinv
  | revertAll w lib =>
    simp only [serve] at h
    cases hr : revertAll fuel w lib s with
    | none => simp [hr] at h
    | some p =>
      simp only [hr, Option.map_some, Option.some.injEq, Prod.mk.injEq] at h
      obtain ⟨rfl, rfl⟩ := h
      exact revertAll_inv hI hinv hr
  | check id =>
    simp only [serve, Option.some.injEq, Prod.mk.injEq] at h
    obtain ⟨rfl, rfl⟩ := h
    exact hinv
  | toggle =>
    simp only [serve, Option.some.injEq] at h
    have : s' = (toggle s).1 := by rw [h]
    rw [this]
    exact toggle_inv hinv

theorem serveAll_inv {m₀ F slot fuel} (hI : Image m₀ F slot) (reqs : List Request)
    (hfit : ∀ r ∈ reqs, Fits m₀ F slot r) (s ps s' as) (hinv : Inv m₀ F slot s ps)
    (h : serveAll fuel s reqs = some (s', as)) : Inv m₀ F slot s' (trackAll ps reqs as) := by
  induction reqs generalizing s ps as with
  | nil =>
    simp only [serveAll, Option.some.injEq, Prod.mk.injEq] at h
    obtain ⟨rfl, rfl⟩ := h
    exact hinv
  | cons r rs ih =>
    simp only [serveAll] at h
    cases hr : serve fuel s r with
    | none => simp [hr] at h
    | some p =>
      obtain ⟨s1, a⟩ := p
      simp only [hr] at h
      cases hrs : serveAll fuel s1 rs with
      | none => simp [hrs] at h
      | some q =>
        obtain ⟨s2, as'⟩ := q
        simp only [hrs, Option.map_some, Option.some.injEq, Prod.mk.injEq] at h
        obtain ⟨rfl, rfl⟩ := h
        exact ih (fun r hr => hfit r (by simp [hr])) s1 _ _ (serve_inv hI (hfit r (by simp)) hinv hr) hrs

theorem init_inv {m₀ F slot} (hI : Image m₀ F slot) : Inv m₀ F slot (State.init m₀) [] := by
  refine ⟨⟨rfl, rfl, Nat.le_refl _⟩, ⟨by simp, by simp⟩, fun _ _ => rfl, fun _ => ?_⟩
  refine ⟨rfl, by simp [State.init], by simp [State.init], trivial, by simp [State.init], by simp [State.init],
    by simp [State.init, stackOf], by simp [State.init, stackOf, stack], ?_, by simp [State.init, stackOf]⟩
  intro f hf
  have := hI.pad f hf
  rw [X86.body_eq] at this
  show X86.Plain m₀ (X86.hasEndbr m₀ f) f
  refine ⟨fun he => by simpa [X86.hasEndbr] using he, ?_⟩
  simpa [or_comm] using this

end Verif.Runtime
