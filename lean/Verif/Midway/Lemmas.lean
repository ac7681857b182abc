import Verif.Midway.Model
import Verif.Midway.Spec
import Verif.Runtime.Props

namespace Verif.Midway

open Runtime Spec
open Verif.Runtime.Spec
open Verif.InsnQueue (Req)
open Verif.InsnQueue.Spec (perform)

/-! ### the effect of writes on one pad -/

/-- On the pad of `f`, the writes `ws` do the same as the entry writes `xs`. -/
def Acts (e : Bool) (f : Nat) (ws : List Req) (xs : List (Option Nat)) : Prop :=
  ∀ m m' : Mem, (∀ i, pad e f i → m i = m' i) → ∀ i, pad e f i → perform m ws i = perform m' (xs.map (entryWrite e f)) i

theorem Acts.append {e f w1 w2 x1 x2} (h1 : Acts e f w1 x1) (h2 : Acts e f w2 x2) : Acts e f (w1 ++ w2) (x1 ++ x2) := by
  intro m m' h i hi
  rw [perform_append, List.map_append, perform_append]
  exact h2 _ _ (fun j hj => h1 m m' h j hj) i hi

theorem store_congr {m m' : Mem} {a bs} {A : Nat → Prop} (h : ∀ i, A i → m i = m' i) :
    ∀ i, A i → m.store a bs i = m'.store a bs i := by
  intro i hi
  unfold Mem.store
  split
  · rfl
  · exact h i hi

theorem perform_congr {A : Nat → Prop} (ws : List Req) {m m' : Mem} (h : ∀ i, A i → m i = m' i) :
    ∀ i, A i → perform m ws i = perform m' ws i := by
  induction ws generalizing m m' with
  | nil => exact h
  | cons w ws ih =>
    cases w with
    | print s => exact ih h
    | write a bs => exact ih (store_congr h)

theorem Acts.self (e f) (xs : List (Option Nat)) : Acts e f (xs.map (entryWrite e f)) xs :=
  fun _ _ h => perform_congr _ h

theorem Acts.out {e f ws} {A : Nat → Prop} (h : InSet A ws) (ha : ∀ i, pad e f i → ¬ A i) : Acts e f ws [] := by
  intro m m' hm i hi
  rw [perform_inSet h (ha i hi)]
  exact hm i hi

/-! ### reverting -/

/-- The entries written for one function when patch `id` is reverted. -/
def rw' (id : Id) : (done rest : List Detour) → List (Option Nat)
  | _, [] => []
  | done, d :: rest =>
    if d.id = id then top (done ++ { d with active := false } :: rest) :: rw' id (done ++ [{ d with active := false }]) rest
    else rw' id (done ++ [d]) rest

theorem rw'_mem {id} {x} (rest done : List Detour) (h : x ∈ rw' id done rest) :
    ∃ pre suf, rest = pre ++ suf ∧ x = top (done ++ pre.map (deact id) ++ suf) := by
  induction rest generalizing done with
  | nil => simp [rw'] at h
  | cons d rest ih =>
    unfold rw' at h
    split at h
    · rename_i hd
      rcases List.mem_cons.mp h with rfl | h
      · exact ⟨[d], rest, rfl, by simp [deact, hd]⟩
      · obtain ⟨pre, suf, h1, h2⟩ := ih _ h
        exact ⟨d :: pre, suf, by simp [h1], by rw [h2]; simp [deact, hd]⟩
    · rename_i hd
      obtain ⟨pre, suf, h1, h2⟩ := ih _ h
      exact ⟨d :: pre, suf, by simp [h1], by rw [h2]; simp [deact, hd]⟩

theorem revertRoot_acts {id f e} (hf : 14 ≤ f) (hf2 : f + 6 < 2 ^ 64) (done rest : List Detour) (s : State)
    (hp : X86.patchable s.mem f = true) (he : X86.hasEndbr s.mem f = e) :
    ∃ ws, Emits s (revertRoot id f done rest s).1 ws ∧ InSet (pad e f) ws ∧ Acts e f ws (rw' id done rest) := by
  induction rest generalizing done s with
  | nil => exact ⟨[], Emits.refl _, by simp [InSet], Acts.self e f []⟩
  | cons d rest ih =>
    rw [revertRoot_cons]
    unfold rw'
    split
    · have h1 := (patchAddr_ready (s := s) (top (done ++ { d with active := false } :: rest)) hp he hf2).1
      generalize hs1 : (patchAddr s f ((top (done ++ { d with active := false } :: rest)).getD 0)
            (top (done ++ { d with active := false } :: rest)).isSome).1 = s1 at h1 ⊢
      have hm : s1.mem = s.mem := h1.mem
      obtain ⟨ws, j1, j2, j3⟩ := ih (done ++ [{ d with active := false }]) s1 (by rw [hm]; exact hp)
        (by rw [hm]; exact he)
      exact ⟨_, h1.trans j1, (entryWrite_inSet hf).append j2, (Acts.self e f [_]).append j3⟩
    · exact ih _ s hp he

theorem revertRoots_acts {id} {F : Nat → Prop} {e0 : Nat → Bool} (hF : ∀ f, F f → 14 ≤ f ∧ f + 6 < 2 ^ 64)
    (hdis : ∀ f g i, F f → F g → pad (e0 f) f i → pad (e0 g) g i → f = g)
    (f) (hf : F f) (rs : List Root) (s : State) (hrs : ∀ r ∈ rs, F r.addr)
    (hready : ∀ g, F g → X86.patchable s.mem g = true ∧ X86.hasEndbr s.mem g = e0 g)
    (hnd : (rs.map (fun r => r.addr)).Nodup) :
    ∃ ws, Emits s (revertRoots id rs s).1 ws ∧ Acts (e0 f) f ws (rw' id [] (stackOf rs f)) := by
  induction rs generalizing s with
  | nil => exact ⟨[], Emits.refl _, Acts.self _ f []⟩
  | cons r rs ih =>
    simp only [revertRoots, stackOf]
    have hr := hrs r (by simp)
    obtain ⟨hp, he⟩ := hready r.addr hr
    obtain ⟨w1, a1, a2, a3⟩ := revertRoot_acts (id := id) (hF _ hr).1 (hF _ hr).2 [] r.detours s hp he
    have hm := (revertRoot_fields id r.addr [] r.detours s).2.2.2.1
    simp only [List.map_cons, List.nodup_cons] at hnd
    obtain ⟨w2, b1, b2⟩ := ih (revertRoot id r.addr [] r.detours s).1 (fun r hr => hrs r (by simp [hr]))
      (by rw [hm]; exact hready) hnd.2
    refine ⟨w1 ++ w2, a1.trans b1, ?_⟩
    by_cases hfa : r.addr = f
    · rw [if_pos hfa]
      subst hfa
      rw [stackOf_none hnd.1] at b2
      simpa [rw'] using a3.append b2
    · rw [if_neg hfa]
      have : Acts (e0 f) f w1 [] := Acts.out a2 (fun i hi hri => hfa (hdis _ _ i hr hf hri hi))
      simpa using this.append b2

/-! ### versions -/

theorem versions_stack (ps : List Applied) (f) : versions (ps.map toPatch) f = (stack ps f).map (fun x => x.2) := by
  induction ps with
  | nil => rfl
  | cons p ps ih =>
    have h1 : versions ((p :: ps).map toPatch) f =
      ((p.units.filter (fun u => u.1 = f)).map (fun u => u.2)).reverse ++ versions (ps.map toPatch) f := rfl
    have h2 : stack (p :: ps) f = ((p.units.filter (fun u => u.1 = f)).map (fun u => (p.id, u.2))).reverse ++ stack ps f := rfl
    rw [h1, h2, ih, List.map_append, List.map_reverse, List.map_map]
    rfl

theorem head?_versions (ps : List Patch) (f) : (versions ps f).head? = replacement ps f := by
  induction ps with
  | nil => rfl
  | cons p ps ih =>
    have h1 : versions (p :: ps) f = ((p.repl.filter (fun u => u.1 = f)).map (fun u => u.2)).reverse ++ versions ps f := rfl
    rw [h1, List.head?_append, head?_reverse_map, ih]
    simp only [replacement]
    cases (p.repl.filter (fun u => u.1 = f)).getLast? <;> rfl

/-- Targets of the active detours. -/
def actives (ds : List Detour) : List Nat := (ds.filter (fun d => d.active)).map (fun d => d.target)

theorem top_actives (ds : List Detour) : top ds = (actives ds).head? := by
  unfold top actives
  rw [← List.head?_filter]
  cases ds.filter (fun d => d.active) <;> rfl

theorem actives_append (a b : List Detour) : actives (a ++ b) = actives a ++ actives b := by
  simp [actives]

theorem actives_deact (id) (ds : List Detour) : (actives (ds.map (deact id))).Sublist (actives ds) := by
  induction ds with
  | nil => exact List.Sublist.refl _
  | cons d ds ih =>
    have h1 : actives ((d :: ds).map (deact id)) = actives [deact id d] ++ actives (ds.map (deact id)) := by
      rw [← actives_append]; rfl
    have h2 : actives (d :: ds) = actives [d] ++ actives ds := by rw [← actives_append]; rfl
    rw [h1, h2]
    refine List.Sublist.append ?_ ih
    unfold deact
    split
    · simp [actives]
    · exact List.Sublist.refl _

theorem good_versions {m₀ F s vm ps} (h : Good m₀ F s vm ps) (f) : versions ps f = actives (stackOf s.roots f) := by
  rw [← h.shown, versions_stack, ← h.stacks f, List.map_map]
  rfl

theorem good_targets {m₀ F s vm ps} (h : Good m₀ F s vm ps) (f g) (hg : g ∈ versions ps f) :
    g < 2 ^ 64 ∧ ¬ inPad m₀ f g := by
  rw [good_versions h] at hg
  obtain ⟨d, hd, rfl⟩ := List.mem_map.mp hg
  exact h.targets f d (List.mem_filter.mp hd).1

/-- `L` is between `a` and `b`. -/
def Between (a b L : List Nat) : Prop := (a.Sublist L ∧ L.Sublist b) ∨ (b.Sublist L ∧ L.Sublist a)

theorem revertPatch_acts {m₀ F slot s vm ps id} (hI : Image m₀ F slot) (hg : Good m₀ F s vm ps)
    (hready : ∀ f, F f → X86.patchable s.mem f = true ∧ X86.hasEndbr s.mem f = X86.hasEndbr m₀ f)
    (hc : canRevert s id = 0) (f) (hf : F f) :
    ∃ ws xs, Emits s (revertPatch s id).1 ws ∧ Acts (X86.hasEndbr m₀ f) f ws xs ∧
      (versions (ps.filter (fun p => p.id ≠ id)) f).Sublist (versions ps f) ∧
      ∀ x ∈ xs, ∃ L, (versions (ps.filter (fun p => p.id ≠ id)) f).Sublist L ∧ L.Sublist (versions ps f) ∧ x = L.head? := by
  obtain ⟨ws, h1, h2⟩ := revertRoots_acts (id := id) hI.range (image_pads hI) f hf s.roots
    { s with univ := s.univ + 1 } (fun r hr => hg.inF r hr) hready hg.nodup
  obtain ⟨_, _, _, _, hg', _, _⟩ := revertPatch_ok hI hg hready hc
  have hst : stackOf (revertPatch s id).1.roots f = (stackOf s.roots f).map (deact id) := by
    have f5 := (revertRoots_fields id s.roots { s with univ := s.univ + 1 }).2.2.2.2
    show stackOf (revertRoots id s.roots { s with univ := s.univ + 1 }).2 f = _
    rw [f5]; exact stackOf_map (fun ds => ds.map (deact id)) s.roots f rfl
  have hv := good_versions hg f
  have hv' := good_versions hg' f
  rw [hst] at hv'
  refine ⟨ws, rw' id [] (stackOf s.roots f), ?_, h2, ?_, ?_⟩
  · exact h1.of_fields rfl rfl rfl rfl rfl rfl
  · rw [hv, hv']; exact actives_deact _ _
  · intro x hx
    obtain ⟨pre, suf, h3, h4⟩ := rw'_mem _ _ hx
    refine ⟨actives (pre.map (deact id) ++ suf), ?_, ?_, by rw [h4, top_actives]; rfl⟩
    · rw [hv', h3, List.map_append, actives_append, actives_append]
      exact (List.Sublist.refl _).append (actives_deact _ _)
    · rw [hv, h3, actives_append, actives_append]
      exact (actives_deact _ _).append (List.Sublist.refl _)

theorem revertAllLoop_acts {m₀ F slot base} (hI : Image m₀ F slot) (f) (hf : F f) (fuel : Nat) (rem : List Applied) (ret : Err)
    (s : State) (vm ps) (hg : Good m₀ F s vm ps)
    (hready : ∀ f, F f → X86.patchable s.mem f = true ∧ X86.hasEndbr s.mem f = X86.hasEndbr m₀ f)
    (s' a) (h : revertAllLoop base fuel rem ret s = some (s', a)) :
    ∃ ws xs vm' ps', Emits s s' ws ∧ Acts (X86.hasEndbr m₀ f) f ws xs ∧ Good m₀ F s' vm' ps' ∧
      (versions ps' f).Sublist (versions ps f) ∧
      ∀ x ∈ xs, ∃ L, (versions ps' f).Sublist L ∧ L.Sublist (versions ps f) ∧ x = L.head? := by
  induction fuel generalizing rem ret s vm ps with
  | zero =>
    cases rem with
    | nil =>
      simp only [revertAllLoop, Option.some.injEq, Prod.mk.injEq] at h
      obtain ⟨rfl, rfl⟩ := h
      exact ⟨[], [], vm, ps, Emits.refl _, Acts.self _ f [], hg, List.Sublist.refl _, by simp⟩
    | cons p rest => simp [revertAllLoop] at h
  | succ fuel ih =>
    cases rem with
    | nil =>
      simp only [revertAllLoop, Option.some.injEq, Prod.mk.injEq] at h
      obtain ⟨rfl, rfl⟩ := h
      exact ⟨[], [], vm, ps, Emits.refl _, Acts.self _ f [], hg, List.Sublist.refl _, by simp⟩
    | cons p rest =>
      by_cases hl : base.take pathLen = p.lib.take pathLen
      · by_cases hc : canRevert s p.id ≠ 0
        · rw [revertAllLoop_stuck hl hc] at h; simp at h
        have hc : canRevert s p.id = 0 := Decidable.not_not.mp hc
        rw [revertAllLoop, if_pos hl] at h
        simp only [hc, ne_eq, not_true_eq_false, if_false] at h
        obtain ⟨r0, w0, e0, i1, g1, u1, p1⟩ := revertPatch_ok hI hg hready hc
        obtain ⟨w1, x1, e1, a1, v1, l1⟩ := revertPatch_acts hI hg hready hc f hf
        generalize hrp : revertPatch s p.id = rp at *
        obtain ⟨s1, e⟩ := rp
        simp only at r0 e1 g1 u1 h p1
        subst r0
        simp only [not_true_eq_false, if_false] at h
        obtain ⟨w2, x2, vm', ps', e2, a2, g2, v2, l2⟩ := ih rest 0 s1 _ _ g1 (by rw [e1.mem]; exact hready) h
        refine ⟨w1 ++ w2, x1 ++ x2, vm', ps', e1.trans e2, a1.append a2, g2, v2.trans v1, ?_⟩
        intro x hx
        rcases List.mem_append.mp hx with hx | hx
        · obtain ⟨L, b1, b2, b3⟩ := l1 x hx
          exact ⟨L, v2.trans b1, b2, b3⟩
        · obtain ⟨L, b1, b2, b3⟩ := l2 x hx
          exact ⟨L, b1, b2.trans v1, b3⟩
      · rw [revertAllLoop, if_neg hl] at h
        exact ih rest ret s vm ps hg hready h

/-! ### applying -/

theorem unitWrites_acts {F : Nat → Prop} {e0 : Nat → Bool}
    (hF : ∀ f, F f → 14 ≤ f ∧ f + 6 < 2 ^ 64)
    (hdis : ∀ f g i, F f → F g → pad (e0 f) f i → pad (e0 g) g i → f = g)
    (f) (hf : F f) (res : List (Nat × Nat)) (hres : ∀ u ∈ res, F u.1) :
    Acts (e0 f) f (res.map fun u => entryWrite (e0 u.1) u.1 (some u.2)) ((res.filter (fun u => u.1 = f)).map (fun u => some u.2)) := by
  induction res with
  | nil => exact Acts.self _ f []
  | cons u res ih =>
    have ih := ih (fun u hu => hres u (by simp [hu]))
    have hu := hres u (by simp)
    rw [List.map_cons]
    change Acts _ _ ([_] ++ _) _
    by_cases huf : u.1 = f
    · rw [List.filter_cons_of_pos (by simpa using huf), List.map_cons]
      refine Acts.append (x1 := [some u.2]) ?_ ih
      rw [huf]
      exact Acts.self _ f [some u.2]
    · rw [List.filter_cons_of_neg (by simpa using huf)]
      exact Acts.append (x1 := []) (Acts.out (entryWrite_inSet (hF _ hu).1) (fun i hi hri => huf (hdis _ _ i hu hf hri hi))) ih

theorem apply_between (w : World) (m : Meta) (ps : List Patch) (f : Nat) :
    ∀ x ∈ (((patchOf w m).repl.filter (fun u => u.1 = f)).map (fun u => some u.2)),
      ∃ L, (versions ps f).Sublist L ∧ L.Sublist (versions (patchOf w m :: ps) f) ∧ x = L.head? := by
  intro x hx
  have h1 : versions (patchOf w m :: ps) f =
    (((patchOf w m).repl.filter (fun u => u.1 = f)).map (fun u => u.2)).reverse ++ versions ps f := rfl
  rw [h1]
  generalize (patchOf w m).repl.filter (fun u => u.1 = f) = l at hx ⊢
  obtain ⟨u, hu, rfl⟩ := List.mem_map.mp hx
  obtain ⟨a, b, rfl⟩ := List.append_of_mem hu
  refine ⟨u.2 :: ((a.map (fun u => u.2)).reverse ++ versions ps f), ?_, ?_, rfl⟩
  · exact ((List.sublist_append_right _ _)).trans (List.sublist_cons_self _ _)
  · simp only [List.map_append, List.map_cons, List.reverse_append, List.reverse_cons, List.append_assoc, List.singleton_append]
    simp

/-! ### one request -/

theorem unhealthy_stays {fuel s r s' a} (hi : Idle s) (hs : serve fuel s r = some (s', a)) (hh : healthy s'.err) :
    healthy s.err := by
  refine Classical.byContradiction fun hn => ?_
  have := C22_internal_error_freezes_partial fuel s hi hn [r]
  simp only [serveAll, hs, Option.map_some, Option.some.injEq, Prod.mk.injEq] at this
  rw [this.1] at hh
  exact hn hh

/-- What a request does to the pad of one function. -/
theorem serve_acts {m₀ F slot s ps fuel r s' a} (hI : Image m₀ F slot) (hfit : Fits m₀ F slot r)
    (hinv : Inv m₀ F slot s ps) (h : serve fuel s r = some (s', a)) (hh : healthy s'.err) (f) (hf : F f) :
    ∃ xs : List (Option Nat), (∀ i, pad (X86.hasEndbr m₀ f) f i → s'.mem i = perform s.mem (xs.map (entryWrite (X86.hasEndbr m₀ f) f)) i) ∧
      ∀ x ∈ xs, ∃ L, Between (versions ps f) (versions (track ps r a) f) L ∧ x = L.head? := by
  have none_case : s'.mem = s.mem → ∃ xs : List (Option Nat),
      (∀ i, pad (X86.hasEndbr m₀ f) f i → s'.mem i = perform s.mem (xs.map (entryWrite (X86.hasEndbr m₀ f) f)) i) ∧
      ∀ x ∈ xs, ∃ L, Between (versions ps f) (versions (track ps r a) f) L ∧ x = L.head? :=
    fun hm => ⟨[], fun i _ => by rw [hm]; rfl, by simp⟩
  have settled : ∀ {s1 : State} {ws : List Req} {xs : List (Option Nat)}, Emits s s1 ws → healthy s1.err → Acts (X86.hasEndbr m₀ f) f ws xs →
      ∀ i, pad (X86.hasEndbr m₀ f) f i → (settle s1).mem i = perform s.mem (xs.map (entryWrite (X86.hasEndbr m₀ f) f)) i := by
    intro s1 ws xs he hh ha i hi
    obtain ⟨ws', _, heq, hs⟩ := settle_emits hinv.clean he
    have hne : s1.err ≠ EINSNQ := by rcases hh with h | h <;> rw [h] <;> decide
    rw [hs, heq hne]
    exact ha _ _ (fun _ _ => rfl) i hi
  have hinv' := serve_inv hI hfit hinv h
  have settle_err : ∀ s : State, (settle s).err = s.err := fun _ => rfl
  cases r with
  | check id =>
    simp only [serve, Option.some.injEq, Prod.mk.injEq] at h
    exact none_case (by rw [h.1])
  | toggle =>
    simp only [serve, Option.some.injEq] at h
    refine none_case ?_
    have : (toggle s).1 = s' := by rw [h]
    rw [← this]
    unfold toggle
    simp only
    split
    · rfl
    split <;> rfl
  | apply w m =>
    simp only [serve, Option.some.injEq, Prod.mk.injEq] at h
    obtain ⟨rfl, rfl⟩ := h
    unfold applyPatch at hinv' hh none_case ⊢
    rw [gate_clean hinv.clean] at hinv' hh none_case ⊢
    by_cases he : s.err ≠ ENONE
    · simp only [if_pos he] at none_case ⊢
      exact none_case (by rw [settle_clean hinv.clean])
    simp only [if_neg he] at hinv' hh none_case ⊢
    have he' : s.err = ENONE := Decidable.not_not.mp he
    cases hb : w.busy with
    | true =>
      simp only [hb, if_true] at none_case ⊢
      exact none_case (by rw [settle_clean hinv.clean])
    | false =>
    simp only [hb, Bool.false_eq_true, if_false] at hinv' hh none_case ⊢
    cases m with
    | error e =>
      simp only at none_case ⊢
      exact none_case (by rw [settle_clean hinv.clean])
    | ok m =>
    simp only at hinv' hh none_case ⊢
    have hg := hinv.good (Or.inl he')
    generalize hl : loadPatch w m s = p at *
    obtain ⟨s1, e⟩ := p
    simp only at hinv' hh none_case ⊢
    rw [settle_err] at hh
    by_cases h0 : e = 0
    · subst h0
      by_cases ht : m.type = 1
      · obtain ⟨ws, a1, a2, a3, -, so, hso, hws⟩ := loadPatch_apply_ok hI hfit ht hg hl
        have htr : track ps (.apply w (.ok m)) 0 = patchOf w m :: ps := by simp [track, ht]
        rw [htr]
        have hres : ∀ u ∈ resolved w m.lib m.units, F u.1 := by
          intro u hu
          rcases fits_units hfit ht u hu with hz | hz
          · have := a3.shown
            exfalso
            obtain ⟨s0, hu0⟩ : ∃ s0, stateUpdate w m s = some s0 := by
              cases hsu : stateUpdate w m s with
              | some s0 => exact ⟨s0, rfl⟩
              | none =>
                exfalso
                unfold loadPatch at hl
                simp only [ht, hsu, show ¬ ((1 : Nat) = 2) by decide, if_false, ne_eq, not_false_eq_true, true_and, if_true] at hl
                by_cases h1 : sanity w m s = 0
                · rw [if_neg (by simpa using h1)] at hl
                  split at hl
                  · exact absurd (Prod.mk.inj hl).2 (by decide)
                  · exact absurd (Prod.mk.inj hl).2 (by decide)
                · rw [if_pos h1] at hl
                  exact h1 (Prod.mk.inj hl).2
            unfold stateUpdate at hu0
            cases hr : resolveUnits w m.lib m.units with
            | none => simp [hr] at hu0
            | some us => exact (resolveUnits_some hr).2 u hu hz
          · exact hz.1
        refine ⟨_, settled a1 hh (xs := ((patchOf w m).repl.filter (fun u => u.1 = f)).map (fun u => some u.2)) ?_, ?_⟩
        · rw [hws]
          rw [show ((patchOf w m).repl.filter (fun u => u.1 = f)).map (fun u => some u.2) =
            ((resolved w m.lib m.units).filter (fun u => u.1 = f)).map (fun u => some u.2) ++ [] by
              rw [List.append_nil, patchOf_resolved]]
          refine (unitWrites_acts hI.range (image_pads hI) f hf _ hres).append (Acts.out (A := slot) ?_ ?_)
          · intro x hx i hi
            obtain ⟨r, hr, rfl⟩ := List.mem_map.mp hx
            simp only [InsnQueue.touches, refBytes_length] at hi
            exact ((hfit ht).2 r hr so hso).2 i hi.1 hi.2
          · intro i hi
            exact hI.slots f i hf ((inPad_iff _ _ _).mpr hi)
        · intro x hx
          obtain ⟨L, b1, b2, b3⟩ := apply_between w m ps f x hx
          exact ⟨L, Or.inl ⟨b1, b2⟩, b3⟩
      · by_cases ht2 : m.type = 2
        · obtain ⟨hc, rfl⟩ := loadPatch_revert hl ht2
          obtain ⟨ws, xs, a1, a2, a3, a4⟩ := revertPatch_acts hI hg (hg.ready hI.range) hc f hf
          have htr : track ps (.apply w (.ok m)) 0 = ps.filter (fun p => p.id ≠ m.id) := by simp [track, ht2]
          rw [htr]
          refine ⟨xs, settled a1 hh a2, ?_⟩
          intro x hx
          obtain ⟨L, b1, b2, b3⟩ := a4 x hx
          exact ⟨L, Or.inr ⟨b1, b2⟩, b3⟩
        · exact absurd rfl (loadPatch_other hl ht ht2)
    · rcases loadPatch_refused hl h0 with rfl | ⟨ht, s0, s2, hu, ha, rfl⟩
      · exact none_case (by rw [settle_clean hinv.clean])
      · exfalso
        rcases hh with h | h <;> simp [EUNKNOWN, ENONE, EUSRBLOCKED] at h
  | revertAll w lib =>
    simp only [serve] at h
    have hrv := h
    unfold revertAll at h
    rw [gate_clean hinv.clean] at h
    by_cases he : s.err ≠ ENONE
    · simp only [if_pos he, Option.map_some, Option.some.injEq, Prod.mk.injEq] at h
      obtain ⟨rfl, rfl⟩ := h
      exact none_case (by rw [settle_clean hinv.clean])
    simp only [if_neg he] at h
    have he' : s.err = ENONE := Decidable.not_not.mp he
    cases hb : w.busy with
    | true =>
      simp only [hb, if_true, Option.map_some, Option.some.injEq, Prod.mk.injEq] at h
      obtain ⟨rfl, rfl⟩ := h
      exact none_case (by rw [settle_clean hinv.clean])
    | false =>
    simp only [hb, Bool.false_eq_true, if_false] at h
    split at h
    · simp only [Option.map_some, Option.some.injEq, Prod.mk.injEq] at h
      obtain ⟨rfl, rfl⟩ := h
      exact none_case (by rw [settle_clean hinv.clean])
    have hg := hinv.good (Or.inl he')
    cases hl : revertAllLoop (getBasename lib) fuel s.patches ENOTARGETLIB s with
    | none => simp [hl] at h
    | some p =>
    obtain ⟨s1, e⟩ := p
    obtain ⟨ws, xs, vm', ps', a1, a2, a3, a4, a5⟩ := revertAllLoop_acts hI f hf fuel s.patches ENOTARGETLIB s s.mem ps hg
      (hg.ready hI.range) s1 e hl
    have hs1 : s' = settle s1 := by
      simp only [hl, Option.map_some, Option.some.injEq] at h
      split at h <;> exact (Prod.mk.inj h).1.symm
    subst hs1
    have htr : track ps (.revertAll w lib) a = ps' := by
      rw [← (hinv'.good hh).shown, ← a3.shown]; rfl
    rw [htr]
    refine ⟨xs, settled a1 hh a2, ?_⟩
    intro x hx
    obtain ⟨L, b1, b2, b3⟩ := a5 x hx
    exact ⟨L, Or.inr ⟨b1, b2⟩, b3⟩

/-! ### the entry as seen by a thread -/

/-- The jump in front of `f` goes to `g`. -/
def Tramp (m : Mem) (f g : Nat) : Prop := m.load (f - 14) 6 = [0xff, 0x25, 0, 0, 0, 0] ∧ m.load (f - 8) 8 = le 8 g

/-- The entry is not two instructions. -/
def Whole (m : Mem) (e : Bool) (f : Nat) : Prop := m.load (f + X86.bias e) 2 ≠ [0x90, 0x90]

theorem tramp_congr {m m' : Mem} {e f g} (hf : 14 ≤ f) (h : ∀ i, pad e f i → m i = m' i) (ht : Tramp m f g) : Tramp m' f g := by
  unfold pad at h
  refine ⟨?_, ?_⟩
  · rw [← load_congr (m := m) (fun i a b => h i ⟨by omega, by omega⟩)]; exact ht.1
  · rw [← load_congr (m := m) (fun i a b => h i ⟨by omega, by omega⟩)]; exact ht.2

theorem whole_congr {m m' : Mem} {e f} (h : ∀ i, pad e f i → m i = m' i) (hw : Whole m e f) : Whole m' e f := by
  unfold pad at h
  unfold Whole
  rw [← load_congr (m := m) (fun i a b => h i ⟨by omega, by omega⟩)]; exact hw

theorem entryWrite_tramp {m : Mem} {e f g} (hf : 14 ≤ f) (x : Option Nat) (h : Tramp m f g) :
    ∃ g', Tramp (perform m [entryWrite e f x]) f g' ∧ (g' = g ∨ some g' = x) := by
  cases x with
  | none =>
    refine ⟨g, ?_, Or.inl rfl⟩
    show Tramp (m.store (f + X86.bias e) [0x66, 0x90]) f g
    unfold Tramp
    rw [load_store_out (by left; omega), load_store_out (by left; omega)]
    exact h
  | some g' =>
    refine ⟨g', ?_, Or.inr rfl⟩
    have := X86.redirected_parts hf (X86.redirected_store m e f g')
    exact ⟨this.1, this.2.1⟩

theorem entryWrite_whole {m : Mem} {e f} (hf : 14 ≤ f) (x : Option Nat) : Whole (perform m [entryWrite e f x]) e f := by
  cases x with
  | none =>
    show Whole (m.store (f + X86.bias e) [0x66, 0x90]) e f
    unfold Whole
    have := load_store (m := m) (a := f + X86.bias e) (bytes := [0x66, 0x90])
    simp only [List.length_cons, List.length_nil] at this
    rw [this]; decide
  | some g' =>
    have := (X86.redirected_parts hf (X86.redirected_store m e f g')).2.2.2.1
    show Whole (m.store (f - 14) (X86.prologue e g')) e f
    unfold Whole
    intro hc
    simp only [Mem.load] at hc
    rw [this] at hc
    simp at hc

theorem writes_tramp {e f} (hf : 14 ≤ f) (xs : List (Option Nat)) {m : Mem} {g} (h : Tramp m f g) :
    ∃ g', Tramp (perform m (xs.map (entryWrite e f))) f g' ∧ (g' = g ∨ some g' ∈ xs) := by
  induction xs generalizing m g with
  | nil => exact ⟨g, h, Or.inl rfl⟩
  | cons x xs ih =>
    rw [List.map_cons, show entryWrite e f x :: xs.map (entryWrite e f) = [entryWrite e f x] ++ xs.map (entryWrite e f) from rfl,
      perform_append]
    obtain ⟨g1, h1, h2⟩ := entryWrite_tramp hf x h
    obtain ⟨g2, h3, h4⟩ := ih h1
    refine ⟨g2, h3, ?_⟩
    rcases h4 with rfl | h4
    · rcases h2 with rfl | h2
      · exact Or.inl rfl
      · exact Or.inr (by rw [h2]; simp)
    · exact Or.inr (by simp [h4])

theorem writes_whole {e f} (hf : 14 ≤ f) (xs : List (Option Nat)) {m : Mem} (h : Whole m e f) :
    Whole (perform m (xs.map (entryWrite e f))) e f := by
  induction xs generalizing m with
  | nil => exact h
  | cons x xs ih =>
    rw [List.map_cons, show entryWrite e f x :: xs.map (entryWrite e f) = [entryWrite e f x] ++ xs.map (entryWrite e f) from rfl,
      perform_append]
    exact ih (entryWrite_whole hf x)

theorem step_tramp {m : Mem} {f g} (hf : 14 ≤ f) (hf2 : f + 6 < 2 ^ 64) (hg : g < 2 ^ 64) (h : Tramp m f g) :
    X86.Spec.step m (f - 14) = some g :=
  X86.step_jmpind h.1 (by rw [show f - 14 + 6 = f - 8 by omega]; exact h.2) (by omega) hg

theorem step_plain {m : Mem} {e f} (hf2 : f + 6 < 2 ^ 64) (h : X86.Plain m e f) (hw : Whole m e f) :
    X86.Spec.step m (f + X86.bias e) = some (f + X86.bias e + 2) := by
  have hb : X86.bias e ≤ 4 := by cases e <;> simp [X86.bias]
  rcases h.2 with h2 | h2
  · exact X86.step_nop2 h2 (by omega)
  · exact absurd h2 hw

theorem step_redirected {m : Mem} {e f g} (hf : 14 ≤ f) (hf2 : f + 6 < 2 ^ 64) (h : X86.Redirected m e f g) :
    X86.Spec.step m (f + X86.bias e) = some (f - 14) ∧ Tramp m f g := by
  obtain ⟨h1, h2, h3, h4, h5⟩ := X86.redirected_parts hf h
  refine ⟨?_, h1, h2⟩
  rw [X86.step_jmp8 h4, h5]
  cases e with
  | true =>
    have : X86.Spec.signed 8 (if true then (0xec : UInt8) else 0xf0).toNat = -20 := by decide
    simp only [X86.bias] at this ⊢
    rw [this]
    congr 1
    unfold X86.Spec.wrap; simp only [if_true]; omega
  | false =>
    have : X86.Spec.signed 8 (if false then (0xec : UInt8) else 0xf0).toNat = -16 := by decide
    simp only [X86.bias] at this ⊢
    rw [this]
    congr 1
    unfold X86.Spec.wrap; simp; omega

/-! ### histories -/

theorem between_gradual {a b L : List Nat} (h : Between a b L) (h1 : b.length ≤ a.length + 1) (h2 : a.length ≤ b.length + 1) :
    L = a ∨ L = b := by
  rcases h with ⟨x, y⟩ | ⟨x, y⟩
  · by_cases hl : L.length = a.length
    · exact Or.inl (x.eq_of_length hl.symm).symm
    · have := x.length_le; have := y.length_le
      exact Or.inr (y.eq_of_length (by omega))
  · by_cases hl : L.length = b.length
    · exact Or.inr (x.eq_of_length hl.symm).symm
    · have := x.length_le; have := y.length_le
      exact Or.inl (y.eq_of_length (by omega))

theorem between_mem {a b L : List Nat} (h : Between a b L) {g} (hg : L.head? = some g) : g ∈ a ∨ g ∈ b := by
  have hm : g ∈ L := List.mem_of_head? hg
  rcases h with ⟨_, y⟩ | ⟨_, y⟩
  · exact Or.inr (y.subset hm)
  · exact Or.inl (y.subset hm)

theorem gradual_tail {f ps ms} (h : Gradual f (ps :: ms)) : Gradual f ms := by
  cases ms with
  | nil => trivial
  | cons q ms => exact h.2

theorem serveAll_whole {m₀ F slot fuel} (hI : Image m₀ F slot) (f) (hf : F f) (reqs : List Request)
    (hfit : ∀ r ∈ reqs, Fits m₀ F slot r) (s ps s' as) (hinv : Inv m₀ F slot s ps)
    (hw : Whole s.mem (X86.hasEndbr m₀ f) f)
    (h : serveAll fuel s reqs = some (s', as)) (hh : healthy s'.err) :
    Whole s'.mem (X86.hasEndbr m₀ f) f := by
  induction reqs generalizing s ps as with
  | nil =>
    simp only [serveAll, Option.some.injEq, Prod.mk.injEq] at h
    rw [← h.1]; exact hw
  | cons r rs ih =>
    simp only [serveAll] at h
    cases hs : serve fuel s r with
    | none => simp [hs] at h
    | some p =>
      obtain ⟨s1, a⟩ := p
      simp only [hs] at h
      cases hr : serveAll fuel s1 rs with
      | none => simp [hr] at h
      | some q =>
        obtain ⟨s2, as'⟩ := q
        simp only [hr, Option.map_some, Option.some.injEq, Prod.mk.injEq] at h
        obtain ⟨rfl, rfl⟩ := h
        have hinv1 := serve_inv hI (hfit r (by simp)) hinv hs
        have hh1 : healthy s1.err := by
          refine Classical.byContradiction fun hn => ?_
          have := C22_internal_error_freezes_partial fuel s1 hinv1.clean hn rs
          rw [hr] at this
          simp only [Option.some.injEq, Prod.mk.injEq] at this
          rw [this.1] at hh
          exact hn hh
        refine ih (fun r hr => hfit r (by simp [hr])) s1 _ _ hinv1 ?_ hr
        obtain ⟨xs, h1, _⟩ := serve_acts hI (hfit r (by simp)) hinv hs hh1 f hf
        exact whole_congr (fun i hi => (h1 i hi).symm) (writes_whole (hI.range f hf).1 xs hw)

/-- Where a thread entering `f` can be. -/
inductive Where (m₀ : Mem) (f : Nat) (mem : Mem) (ms : List (List Patch)) : (pc n : Nat) → Prop where
  | entry : Where m₀ f mem ms f 0
  | second (he : X86.hasEndbr m₀ f = true) : Where m₀ f mem ms (f + 4) 1
  | tramp (g n) (hn : n ≤ 2) (h : Tramp mem f g) (hg : g < 2 ^ 64 ∧ ¬ inPad m₀ f g)
      (hl : ∃ q ∈ ms, g ∈ versions q f) (hc : Gradual f ms → ∃ q ∈ ms, replacement q f = some g) :
      Where m₀ f mem ms (f - 14) n
  | out (pc n) (hn : n ≤ 3) (ho : ¬ inPad m₀ f pc)
      (hl : ∃ q ∈ ms, (pc = X86.Spec.body m₀ f ∧ replacement q f = none) ∨ pc ∈ versions q f)
      (hc : Gradual f ms → ∃ q ∈ ms, Current (X86.Spec.body m₀ f) f pc q) : Where m₀ f mem ms pc n

theorem call_where {fuel m₀ F slot f s₀ ps₀ s ps pc n ms} (hI : Image m₀ F slot) (hf : F f)
    (hinv₀ : Inv m₀ F slot s₀ ps₀) (hw₀ : healthy s₀.err → Whole s₀.mem (X86.hasEndbr m₀ f) f)
    (h : Call fuel m₀ F slot f s₀ ps₀ s ps pc n ms) :
    Inv m₀ F slot s ps ∧ (∃ ms', ms = ps :: ms') ∧
    (healthy s.err → Whole s.mem (X86.hasEndbr m₀ f) f ∧ Where m₀ f s.mem ms pc n) := by
  obtain ⟨hr1, hr2⟩ := hI.range f hf
  have hbody := X86.body_eq m₀ f
  induction h with
  | start => exact ⟨hinv₀, ⟨[], rfl⟩, fun hh => ⟨hw₀ hh, .entry⟩⟩
  | @request s ps pc n ms r s' a _ hr hs ih =>
    obtain ⟨hinv, ⟨ms', rfl⟩, hj⟩ := ih
    have hinv' := serve_inv hI hr hinv hs
    refine ⟨hinv', ⟨_, rfl⟩, fun hh => ?_⟩
    obtain ⟨hw, hj⟩ := hj (unhealthy_stays hinv.clean hs hh)
    obtain ⟨xs, h1, h2⟩ := serve_acts hI hr hinv hs hh f hf
    refine ⟨whole_congr (fun i hi => (h1 i hi).symm) (writes_whole hr1 xs hw), ?_⟩
    cases hj with
    | entry => exact .entry
    | second he => exact .second he
    | tramp g _ hn ht hg hl hc =>
      obtain ⟨g', ht', hg'⟩ := writes_tramp (e := X86.hasEndbr m₀ f) hr1 xs ht
      have ht'' : Tramp s'.mem f g' := tramp_congr hr1 (fun i hi => (h1 i hi).symm) ht'
      have old : g' = g → Where m₀ f s'.mem (track ps r a :: ps :: ms') (f - 14) n := by
        rintro rfl
        obtain ⟨q, hq, hgq⟩ := hl
        refine .tramp g' _ hn ht'' hg ⟨q, by simp [List.mem_cons.mp hq], hgq⟩ fun hgr => ?_
        obtain ⟨q, hq, e⟩ := hc (gradual_tail hgr)
        exact ⟨q, by simp [List.mem_cons.mp hq], e⟩
      rcases hg' with hg' | hg'
      · exact old hg'
      · obtain ⟨L, hL, hhd⟩ := h2 _ hg'
        have hmem := between_mem hL hhd.symm
        have hgood' := hinv'.good hh
        have hgood := hinv.good (unhealthy_stays hinv.clean hs hh)
        refine .tramp g' _ hn ht'' ?_ ?_ fun hgr => ?_
        · rcases hmem with hm | hm
          · exact good_targets hgood f g' hm
          · exact good_targets hgood' f g' hm
        · rcases hmem with hm | hm
          · exact ⟨ps, by simp, hm⟩
          · exact ⟨track ps r a, by simp, hm⟩
        · rcases between_gradual hL hgr.1.1 hgr.1.2 with rfl | rfl
          · exact ⟨ps, by simp, by rw [← head?_versions]; exact hhd.symm⟩
          · exact ⟨track ps r a, by simp, by rw [← head?_versions]; exact hhd.symm⟩
    | out _ _ hn ho hl hc =>
      refine .out _ _ hn ho ?_ fun hgr => ?_
      · obtain ⟨q, hq, h⟩ := hl
        exact ⟨q, by simp [List.mem_cons.mp hq], h⟩
      · obtain ⟨q, hq, h⟩ := hc (gradual_tail hgr)
        exact ⟨q, by simp [List.mem_cons.mp hq], h⟩
  | @step s ps pc n ms pc' _ hp hs ih =>
    obtain ⟨hinv, ⟨ms', rfl⟩, hj⟩ := ih
    refine ⟨hinv, ⟨_, rfl⟩, fun hh => ?_⟩
    obtain ⟨hw, hj⟩ := hj hh
    refine ⟨hw, ?_⟩
    have hgood := hinv.good hh
    have hent := hgood.entries f hf
    rw [hgood.top f] at hent
    -- the two bytes of the entry
    have second : ∀ n, n ≤ 1 → pc = f + X86.bias (X86.hasEndbr m₀ f) → Where m₀ f s.mem (ps :: ms') pc' (n + 1) := by
      intro n hn hpc
      subst hpc
      cases hrep : replacement ps f with
      | none =>
        rw [hrep] at hent
        rw [step_plain hr2 hent hw, ← hbody] at hs
        injection hs with hs
        subst hs
        refine .out _ _ (by omega) ?_ ⟨ps, by simp, Or.inl ⟨rfl, hrep⟩⟩ fun _ => ⟨ps, by simp, by rw [Current, hrep]; rfl⟩
        unfold inPad; omega
      | some g =>
        rw [hrep] at hent
        obtain ⟨h1, h2⟩ := step_redirected hr1 hr2 hent
        rw [h1] at hs
        injection hs with hs
        subst hs
        have hv : g ∈ versions ps f := by
          have := head?_versions ps f
          rw [hrep] at this
          exact List.mem_of_head? this
        exact .tramp g _ (by omega) h2 (good_targets hgood f g hv) ⟨ps, by simp, hv⟩ fun _ => ⟨ps, by simp, hrep⟩
    cases hj with
    | entry =>
      cases he : X86.hasEndbr m₀ f with
      | false => exact second 0 (by omega) (by rw [he]; rfl)
      | true =>
        have h4 := hent.endbr hr1 he
        rw [X86.step_endbr h4 (by omega)] at hs
        injection hs with hs
        subst hs
        exact .second he
    | second he => exact second 1 (by omega) (by rw [he]; rfl)
    | tramp g _ hn ht hg hl hc =>
      rw [step_tramp hr1 hr2 hg.1 ht] at hs
      injection hs with hs
      subst hs
      obtain ⟨q, hq, hgq⟩ := hl
      refine .out _ _ (by omega) hg.2 ⟨q, hq, Or.inr hgq⟩ fun hgr => ?_
      obtain ⟨q, hq, e⟩ := hc hgr
      exact ⟨q, hq, by rw [Current, e]; rfl⟩
    | out _ _ hn ho hl hc => exact absurd hp ho

end Verif.Midway
