import Verif.Many.Lemmas
import Verif.Session.Props

/-! Properties C147 to C149: replacing live patches with `--revert-all`, and several live patches in one run. -/

namespace Verif.Many

open Verif.Runtime
open Verif.Runtime.Spec
open Verif.Session
open Verif.Session.Spec
open Verif.Many.Spec
open Verif.X86.Spec (callDest body)

/-! ### C147: replacing live patches -/

theorem own_key {x : Session} {lib : Str} {m : Meta} (hp : x.patch = some m) (ho : Own lib m) : libKey (revertLib x lib) = libKey m.lib := by
  simp only [revertLib, hp]
  split
  · rfl
  · rename_i h
    rcases ho with h' | h'
    · exact absurd h' h
    · exact h'

theorem without_own {x : Session} {lib : Str} {m : Meta} (hp : x.patch = some m) (ho : Own lib m) (ps : List Patch) :
    without (revertLib x lib) ps = without m.lib ps := by
  simp only [without, own_key hp ho]

/-- **C147** (partial: of runs that report success, see `C147_failure` and `C147_left_without` for the others) Whatever runs of `ulp trigger` a process has seen: when a run
with `--revert-all` for the library of its live patch reports success then, unless an internal error is recorded, exactly the patches of other libraries that were in force before
are in force, and the new one on top; and calls go accordingly. -/
theorem C147_replaced_partial {m₀ : Mem} {F slot : Nat → Prop} (hI : Image m₀ F slot) (fuel : Nat) (xs : List Session)
    (hxs : ∀ x ∈ xs, Session.Ok m₀ F slot x) (s : State) (log : Log) (results : List Int)
    (h : sessions fuel (State.init m₀) xs = some (s, log, results))
    (x : Session) (hx : Session.Ok m₀ F slot x) (hfound : Session.Found x) (ha : ∀ i, Try.Alone (x.env i))
    (lib : Str) (hl : x.lib = some lib) (m : Meta) (hm : x.patch = some m) (ht : m.type = 1) (ho : Own lib m)
    (s' : State) (log' : Log) (h' : session fuel s x = some (s', log', 0)) (hh : healthy s'.err) :
    ∃ i, notes [] (log ++ log') = patchOf (x.env i).world m :: without m.lib (notes [] log) ∧
      Follow m₀ F s'.mem (patchOf (x.env i).world m :: without m.lib (notes [] log)) := by
  have hw := sessions_W hI xs hxs _ [] _ _ _ (init_W hI) h
  obtain ⟨j, hj⟩ := (loop_replaced hI hx hfound hl hm ht ha _ _ _ s _ (-1) s' log' hw (by decide) h').2 hh
  rw [without_own hm ho] at hj
  obtain ⟨-, -, -, h4⟩ := C130_success_in_force_partial hI fuel xs hxs s log results h x hx hfound s' log' h'
  have h4 := h4 hh
  rw [List.nil_append] at hj
  exact ⟨j, hj, by rw [← hj]; exact h4⟩

/-- When such a run reports failure, nothing else going wrong, then either nothing has changed, or libpulp has reverted the patches of the library, and no patch is
in force for it, old or new. -/
theorem C147_failure {m₀ : Mem} {F slot : Nat → Prop} (hI : Image m₀ F slot) (fuel : Nat) (xs : List Session)
    (hxs : ∀ x ∈ xs, Session.Ok m₀ F slot x) (s : State) (log : Log) (results : List Int)
    (h : sessions fuel (State.init m₀) xs = some (s, log, results)) (hn : s.q.num = 0) (hz : s.q.size = 0)
    (x : Session) (hx : Session.Ok m₀ F slot x) (hq : ∀ i, Try.Quiet (x.env i))
    (lib : Str) (hl : x.lib = some lib) (m : Meta) (hm : x.patch = some m) (ho : Own lib m)
    (s' : State) (log' : Log) (res : Int) (h' : session fuel s x = some (s', log', res)) (hres : res ≠ 0) (hh : healthy s'.err) :
    (s' = s ∧ ∀ e ∈ log', e.2 ≠ 0) ∨
    ((∃ j, (Request.revertAll (x.env j).world (revertLib x lib), 0) ∈ log') ∧ Follow m₀ F s'.mem (without m.lib (notes [] log)) ∧
      notes [] (log ++ log') = without m.lib (notes [] log)) := by
  have hw := sessions_W hI xs hxs _ [] _ _ _ (init_W hI) h
  rw [List.nil_append] at hw
  have hi : Idle s := ⟨hn, hz, hw.k.ver⟩
  rcases (loop_failed hI hx hl hm hq _ _ _ s _ (-1) s' log' res hw hi (by decide) h').2 hres hh with h1 | ⟨h1, h2, h3⟩
  · exact Or.inl h1
  · rw [without_own hm ho] at h3
    refine Or.inr ⟨h1, ?_, h3⟩
    have hw' := (session_W hI hx hw h').w
    have := Inv.follow hI (hw'.k.inv h2) hh
    rwa [h3] at this

/-- The second does happen: a live patch that depends on one in force for the same library always fails to replace, and the
library is left without patches. -/
theorem C147_left_without {m₀ : Mem} {F slot : Nat → Prop} (hI : Image m₀ F slot) (fuel : Nat) (xs : List Session)
    (hxs : ∀ x ∈ xs, Session.Ok m₀ F slot x) (s : State) (log : Log) (results : List Int)
    (h : sessions fuel (State.init m₀) xs = some (s, log, results)) (hn : s.q.num = 0) (hz : s.q.size = 0) (he : s.err = ENONE)
    (x : Session) (hx : Session.Ok m₀ F slot x) (hq : ∀ i, Try.Quiet (x.env i)) (hr : Try.Reverts (x.env 0)) (hret : x.retries ≠ 0)
    (lib : Str) (hl : x.lib = some lib) (m : Meta) (hm : x.patch = some m) (ht : m.type = 1) (ho : Own lib m)
    (hlen : basenameOff lib < 256 ∧ basenameOff m.lib < 256)
    (p : Patch) (hp : p ∈ notes [] log) (hpl : p.lib = libKey m.lib) (hdep : p.id ∈ m.deps) (hid : p.id ≠ m.id)
    (s' : State) (log' : Log) (res : Int) (h' : session fuel s x = some (s', log', res)) (hh : healthy s'.err) :
    res ≠ 0 ∧ Follow m₀ F s'.mem (without m.lib (notes [] log)) ∧ notes [] (log ++ log') = without m.lib (notes [] log) ∧
      only m.lib (notes [] (log ++ log')) = [] := by
  have hw := sessions_W hI xs hxs _ [] _ _ _ (init_W hI) h
  rw [List.nil_append] at hw
  have hi : Idle s := ⟨hn, hz, hw.k.ver⟩
  have hfound : Session.Found x := fun i => ⟨(hq i).found, (hq i).calm.found⟩
  have hbook : Book (notes [] log) := (hw.k.inv hi).book
  have hres : res ≠ 0 := by
    rintro rfl
    obtain ⟨i, e, -⟩ := C147_replaced_partial hI fuel xs hxs s log results h x hx hfound (fun i => (hq i).toAlone) lib hl m hm ht ho s' log' h' hh
    have hd := session_W hI hx hw h'
    obtain ⟨-, -, -, -, hi'⟩ := hd.ok rfl hfound
    have hb' := (hd.w.k.inv hi').book
    rw [e] at hb'
    obtain ⟨q, hqm, hqe⟩ := hb'.deps (patchOf (x.env i).world m) (by simp) p.id hdep
    rcases List.mem_cons.mp hqm with rfl | hqm
    · exact hid hqe.symm
    · simp only [without, List.mem_filter, decide_eq_true_eq] at hqm
      have : q = p :=
        same_patch hbook.ids hqm.1 hp hqe
      subst this
      exact hqm.2 hpl
  have hlen' : basenameOff (revertLib x lib) < 256 := by
    simp only [revertLib, hm]
    split
    · exact hlen.2
    · exact hlen.1
  have hex : ∃ p ∈ notes [] log, p.lib = libKey (revertLib x lib) := ⟨p, hp, by rw [own_key hm ho]; exact hpl⟩
  obtain ⟨n, hn'⟩ : ∃ n, x.retries = n + 1 := ⟨x.retries - 1, by omega⟩
  have h'' := h'
  unfold session at h''
  rw [hn'] at h''
  obtain ⟨e, hel, he0⟩ := loop_reverts hI hl hm (hq 0).before hr hw hi he hlen' hex h''
  rcases C147_failure hI fuel xs hxs s log results h hn hz x hx hq lib hl m hm ho s' log' res h' hres hh with ⟨-, h1⟩ | ⟨-, h2, h3⟩
  · exact absurd he0 (h1 e hel)
  · refine ⟨hres, h2, h3, ?_⟩
    rw [h3]
    unfold only without
    rw [List.filter_filter, List.filter_eq_nil_iff]
    intro q _
    simp

/-! ### C148: several live patches -/

/-- **C148** (partial: without `--revert-all`, see `C148_last_only` for runs with it) When several live patches are applied in one run, all those for which success is reported are in force at the end, as are all
that were in force before; and, unless an internal error is recorded or something is left in the queue, calls go accordingly. -/
theorem C148_all_in_force_partial {m₀ : Mem} {F slot : Nat → Prop} (hI : Image m₀ F slot) (fuel : Nat) (xs : List Session)
    (hxs : ∀ x ∈ xs, Session.Ok m₀ F slot x) (s : State) (log : Log) (results : List Int)
    (h : sessions fuel (State.init m₀) xs = some (s, log, results))
    (fs : List Found) (retries : Nat) (hfs : ∀ f ∈ fs, Found.Ok m₀ F slot f ∧ f.patch.type = 1 ∧ ∀ i, (f.env i).before = [] ∧ (f.env i).queueRevert.found = true ∧ (f.env i).queueApply.found = true)
    (s' : State) (log' : Log) (rs : List Int) (h' : many fuel none retries s fs = some (s', log', rs)) :
    (∀ f r, (f, r) ∈ fs.zip rs → r = 0 → ∃ i, patchOf (f.env i).world f.patch ∈ notes [] (log ++ log')) ∧
    (∀ p ∈ notes [] log, p ∈ notes [] (log ++ log')) ∧
    (healthy s'.err → s'.q.num = 0 → s'.q.size = 0 → Follow m₀ F s'.mem (notes [] (log ++ log'))) := by
  have hw := sessions_W hI xs hxs _ [] _ _ _ (init_W hI) h
  rw [List.nil_append] at hw
  have hw' := many_W hI fs (fun f hf => (hfs f hf).1) s log s' log' rs hw h'
  refine ⟨?_, ?_, fun hh h1 h2 => Inv.follow hI (hw'.k.inv ⟨h1, h2, hw'.k.ver⟩) hh⟩
  · clear h hw'
    induction fs generalizing s log log' rs with
    | nil => simp
    | cons f fs ih =>
      unfold many at h'
      cases h1 : one fuel none retries s f with
      | none => simp [h1] at h'
      | some q =>
      obtain ⟨s1, l1, r1⟩ := q
      simp only [h1, Option.map_eq_some_iff] at h'
      obtain ⟨⟨s2, l2, rs2⟩, h2, hb⟩ := h'
      simp only [Prod.mk.injEq] at hb
      obtain ⟨rfl, rfl, rfl⟩ := hb
      obtain ⟨hok, ht, hb⟩ := hfs f (by simp)
      have hw1 := one_W hI hok hw h1
      intro g r hg h0
      simp only [List.zip_cons_cons, List.mem_cons, Prod.mk.injEq] at hg
      rw [← List.append_assoc]
      rcases hg with ⟨rfl, rfl⟩ | hg
      · subst h0
        have hes : ∃ i, patchOf (g.env i).world g.patch ∈ notes [] (log ++ l1) := by
          unfold one at h1
          split at h1
          · rename_i e hearly
            simp only [Option.some.injEq, Prod.mk.injEq] at h1
            exact absurd (h1.2.2 ▸ hearly) hok.early
          · obtain ⟨l₀, r, e1, e2, -⟩ := (session_W hI (hok.session none retries) hw h1).ok rfl (fun i => (hb i).2)
            rcases e2 with ⟨m', i, hm', rfl⟩ | ⟨hn, -⟩
            · have : g.patch = m' := Option.some.inj hm'
              subst this
              refine ⟨i, ?_⟩
              rw [e1, ← List.append_assoc, notes_append]
              simp [notes, track, ht, Found.session]
            · exact absurd hn (by simp [Found.session])
        obtain ⟨i, hi⟩ := hes
        obtain ⟨new, e⟩ := many_grows fs (fun g hg => ⟨(hfs g (by simp [hg])).2.1, fun i => ((hfs g (by simp [hg])).2.2 i).1⟩) s1 s2 l2 rs2 (notes [] (log ++ l1)) h2
        exact ⟨i, by rw [notes_append, e]; exact List.mem_append_right _ hi⟩
      · exact ih s1 (log ++ l1) (fun g hg => hfs g (by simp [hg])) l2 rs2 h2 hw1 g r hg h0
  · intro p hp
    obtain ⟨new, e⟩ := many_grows fs (fun g hg => ⟨(hfs g hg).2.1, fun i => ((hfs g hg).2.2 i).1⟩) s s' log' rs (notes [] log) h'
    rw [notes_append, e]
    exact List.mem_append_right _ hp

/-- With `--revert-all` that is not so: each live patch reverts what was applied before it. When success is reported for the last one, it is
the only one in force for its library, whatever was reported for the others. -/
theorem C148_last_only {m₀ : Mem} {F slot : Nat → Prop} (hI : Image m₀ F slot) (fuel : Nat) (xs : List Session)
    (hxs : ∀ x ∈ xs, Session.Ok m₀ F slot x) (s : State) (log : Log) (results : List Int)
    (h : sessions fuel (State.init m₀) xs = some (s, log, results))
    (fs : List Found) (g : Found) (retries : Nat) (lib : Str) (hfs : ∀ f ∈ fs, Found.Ok m₀ F slot f)
    (hg : Found.Ok m₀ F slot g) (hge : g.early = none) (ht : g.patch.type = 1) (ho : Own lib g.patch)
    (ha : ∀ i, Try.Alone (g.env i) ∧ (g.env i).queueRevert.found = true ∧ (g.env i).queueApply.found = true)
    (s' : State) (log' : Log) (rs : List Int) (h' : many fuel (some lib) retries s (fs ++ [g]) = some (s', log', rs ++ [0]))
    (hh : healthy s'.err) :
    ∃ i, only g.patch.lib (notes [] (log ++ log')) = [patchOf (g.env i).world g.patch] ∧ Follow m₀ F s'.mem (notes [] (log ++ log')) := by
  have hw := sessions_W hI xs hxs _ [] _ _ _ (init_W hI) h
  rw [List.nil_append] at hw
  obtain ⟨s1, l1, rs1, l2, rs2, h1, h2, rfl, e2, hlen⟩ := many_append fs [g] s s' log' _ h'
  obtain ⟨r, rfl, h3⟩ := many_one h2
  have hr : r = 0 := by
    have := congrArg List.getLast? e2
    simpa using this.symm
  subst hr
  have hw1 := many_W hI fs hfs s log s1 l1 rs1 hw h1
  unfold one at h3
  rw [hge] at h3
  simp only at h3
  have hf : Session.Found (g.session (some lib) retries) := fun i => (ha i).2
  obtain ⟨j, hj⟩ := (loop_replaced hI (hg.session (some lib) retries) hf rfl rfl ht (fun i => (ha i).1) _ _ _ s1 _ (-1) s' l2 hw1 (by decide) h3).2 hh
  obtain ⟨hw2, hok⟩ := session_W hI (hg.session (some lib) retries) hw1 h3
  obtain ⟨-, -, -, -, hi⟩ := hok rfl hf
  refine ⟨j, ?_, ?_⟩
  · rw [← List.append_assoc, hj, without_own (x := g.session (some lib) retries) rfl ho]
    have hn : (without g.patch.lib (notes [] (log ++ l1))).filter (fun p => p.lib = libKey g.patch.lib) = [] := by
      unfold without
      rw [List.filter_filter, List.filter_eq_nil_iff]
      intro q _
      simp
    unfold only
    rw [List.filter_cons, if_pos (by simp [patchOf, Found.session]), hn]
    rfl
  · rw [← List.append_assoc]
    exact Inv.follow hI (hw2.k.inv hi) hh

/-! ### C149: the order in which live patches are found -/

/-- **C149** (partial: for live patches that are found in an order in which dependencies come first, see `C149_wrong_order` and
`C149_last_wins` for others) When nothing stands in the way of the live patches found, then all are applied in one run, on top of each other. -/
theorem C149_in_order_partial {m₀ : Mem} {F slot : Nat → Prop} (hI : Image m₀ F slot) (fuel : Nat) (xs : List Session)
    (hxs : ∀ x ∈ xs, Session.Ok m₀ F slot x) (s : State) (log : Log) (results : List Int)
    (h : sessions fuel (State.init m₀) xs = some (s, log, results)) (hn : s.q.num = 0) (hz : s.q.size = 0) (he : s.err = ENONE)
    (fs : List Found) (retries : Nat) (hr : retries ≠ 0) (hfs : ∀ f ∈ fs, Found.Smooth F f ∧ Found.Ok m₀ F slot f)
    (hnd : (fs.map fun f => f.patch.id).Nodup) (hnew : ∀ f ∈ fs, f.patch.id ∉ ids (notes [] log)) (ho : InOrder (ids (notes [] log)) fs) :
    ∃ s' log' rs, many fuel none retries s fs = some (s', log', rs) ∧ (∀ r ∈ rs, r = 0) ∧ rs.length = fs.length ∧ s'.err = ENONE ∧
      notes [] (log ++ log') = (fs.map fun f => patchOf (f.env 0).world f.patch).reverse ++ notes [] log ∧
      Follow m₀ F s'.mem (notes [] (log ++ log')) := by
  have hw := sessions_W hI xs hxs _ [] _ _ _ (init_W hI) h
  rw [List.nil_append] at hw
  obtain ⟨s', l', rs, h1, h2, h3, h4, h5, h6, h7⟩ := many_inOrder (fuel := fuel) hI hr fs hfs hnd s log ho hnew hw ⟨hn, hz, hw.k.ver⟩ he
  exact ⟨s', l', rs, h1, h5, h6, h3, h7, Inv.follow hI (h4.k.inv h2) (Or.inl h3)⟩

/-- Found in any order, they are all in force after as many runs as there are live patches, if there is any order at all in which dependencies come first. -/
theorem C149_again {m₀ : Mem} {F slot : Nat → Prop} (hI : Image m₀ F slot) (fuel : Nat) (xs : List Session)
    (hxs : ∀ x ∈ xs, Session.Ok m₀ F slot x) (s : State) (log : Log) (results : List Int)
    (h : sessions fuel (State.init m₀) xs = some (s, log, results)) (hn : s.q.num = 0) (hz : s.q.size = 0) (he : s.err = ENONE)
    (fs : List Found) (retries : Nat) (hr : retries ≠ 0) (hfs : ∀ f ∈ fs, Found.Smooth F f ∧ Found.Ok m₀ F slot f)
    (order : List Found) (hp : order.Perm fs) (ho : InOrder (ids (notes [] log)) order) :
    ∃ s' log' rs, again fuel retries fs fs.length s = some (s', log', rs) ∧ s'.err = ENONE ∧
      (∀ f ∈ fs, f.patch.id ∈ ids (notes [] (log ++ log'))) ∧ Follow m₀ F s'.mem (notes [] (log ++ log')) := by
  have hw := sessions_W hI xs hxs _ [] _ _ _ (init_W hI) h
  rw [List.nil_append] at hw
  obtain ⟨s', l', rs, h1, h2, h3, h4, -, h5⟩ := again_smooth (fuel := fuel) hI hr fs hfs fs.length order s log (fun f hf => hp.mem_iff.mp hf)
    (by rw [hp.length_eq]; exact Nat.le_refl _) ho hw ⟨hn, hz, hw.k.ver⟩ he
  exact ⟨s', l', rs, h1, h3, fun f hf => h5 f (hp.mem_iff.mpr hf), Inv.follow hI (h4.k.inv h2) (Or.inl h3)⟩

/-- Found in the wrong order, a live patch that depends on another is not applied, although it would be in the other order. -/
theorem C149_wrong_order {m₀ : Mem} {F slot : Nat → Prop} (hI : Image m₀ F slot) (fuel : Nat) (xs : List Session)
    (hxs : ∀ x ∈ xs, Session.Ok m₀ F slot x) (s : State) (log : Log) (results : List Int)
    (h : sessions fuel (State.init m₀) xs = some (s, log, results)) (hn : s.q.num = 0) (hz : s.q.size = 0) (he : s.err = ENONE)
    (f g : Found) (retries : Nat) (hr : retries ≠ 0) (hf : Found.Smooth F f ∧ Found.Ok m₀ F slot f) (hg : Found.Smooth F g ∧ Found.Ok m₀ F slot g)
    (hne : f.patch.id ≠ g.patch.id) (hf0 : f.patch.id ∉ ids (notes [] log)) (hg0 : g.patch.id ∉ ids (notes [] log))
    (hfd : ∀ d ∈ f.patch.deps, d ∈ ids (notes [] log)) (hgf : f.patch.id ∈ g.patch.deps)
    (hgd : ∀ d ∈ g.patch.deps, d = f.patch.id ∨ d ∈ ids (notes [] log)) :
    (∃ s₁ l₁, many fuel none retries s [f, g] = some (s₁, l₁, [0, 0]) ∧
      notes [] (log ++ l₁) = patchOf (g.env 0).world g.patch :: patchOf (f.env 0).world f.patch :: notes [] log) ∧
    (∃ s₂ l₂ r, many fuel none retries s [g, f] = some (s₂, l₂, [r, 0]) ∧ r ≠ 0 ∧
      notes [] (log ++ l₂) = patchOf (f.env 0).world f.patch :: notes [] log) := by
  have hw := sessions_W hI xs hxs _ [] _ _ _ (init_W hI) h
  rw [List.nil_append] at hw
  have hi : Idle s := ⟨hn, hz, hw.k.ver⟩
  constructor
  · obtain ⟨s1, l1, rs, h1, -, -, -, h5, h6, h7⟩ := many_inOrder (fuel := fuel) hI hr [f, g] (by
      intro x hx; simp only [List.mem_cons, List.not_mem_nil, or_false] at hx; rcases hx with rfl | rfl
      · exact hf
      · exact hg) (by simpa using hne) s log
      ⟨hfd, by intro d hd; rcases hgd d hd with e | e <;> simp [e], trivial⟩ (by
      intro x hx; simp only [List.mem_cons, List.not_mem_nil, or_false] at hx; rcases hx with rfl | rfl
      · exact hf0
      · exact hg0) hw hi he
    refine ⟨s1, l1, ?_, by simpa using h7⟩
    match rs, h6, h5 with
    | [a, b], _, h5 =>
      have e1 := h5 a (by simp)
      have e2 := h5 b (by simp)
      rw [h1, e1, e2]
  · obtain ⟨s1, l1, r1, h1, hi1, he1, hw1, hc⟩ := one_smooth (fuel := fuel) hI hg.1 (hg.2.session none retries) hr hw hi he
    rcases hc with ⟨-, hd, -, -⟩ | ⟨-, hr1, -, e1⟩
    · exact absurd (hd _ hgf) hf0
    obtain ⟨s2, l2, r2, h2, -, -, -, hc⟩ := one_smooth (fuel := fuel) hI hf.1 (hf.2.session none retries) hr hw1 hi1 he1
    rw [e1] at hc
    rcases hc with ⟨-, -, rfl, e2⟩ | ⟨hno, -⟩
    · refine ⟨s2, l1 ++ l2, r1, ?_, hr1, by rw [← List.append_assoc]; exact e2⟩
      simp only [many, h1, h2, Option.map_some, List.append_nil]
    · rcases hno with hno | ⟨d, hd1, hd2⟩
      · exact absurd hno hf0
      · exact absurd (hfd d hd1) hd2

/-- When two live patches replace the same function, the one found last is in force for it. -/
theorem C149_last_wins {m₀ : Mem} {F slot : Nat → Prop} (hI : Image m₀ F slot) (fuel : Nat) (xs : List Session)
    (hxs : ∀ x ∈ xs, Session.Ok m₀ F slot x) (s : State) (log : Log) (results : List Int)
    (h : sessions fuel (State.init m₀) xs = some (s, log, results)) (hn : s.q.num = 0) (hz : s.q.size = 0) (he : s.err = ENONE)
    (f g : Found) (retries : Nat) (hr : retries ≠ 0) (hf : Found.Smooth F f ∧ Found.Ok m₀ F slot f) (hg : Found.Smooth F g ∧ Found.Ok m₀ F slot g)
    (hne : f.patch.id ≠ g.patch.id) (hf0 : f.patch.id ∉ ids (notes [] log)) (hg0 : g.patch.id ∉ ids (notes [] log))
    (hfd : ∀ d ∈ f.patch.deps, d ∈ ids (notes [] log)) (hgd : ∀ d ∈ g.patch.deps, d ∈ ids (notes [] log))
    (a : Nat) (ha : F a) (new new' : Nat) (hfa : replacement [patchOf (f.env 0).world f.patch] a = some new)
    (hga : replacement [patchOf (g.env 0).world g.patch] a = some new') :
    (∃ s₁ l₁, many fuel none retries s [f, g] = some (s₁, l₁, [0, 0]) ∧ callDest s₁.mem a = some new') ∧
    (∃ s₂ l₂, many fuel none retries s [g, f] = some (s₂, l₂, [0, 0]) ∧ callDest s₂.mem a = some new) := by
  have key : ∀ (f g : Found) (n : Nat), Found.Smooth F f ∧ Found.Ok m₀ F slot f → Found.Smooth F g ∧ Found.Ok m₀ F slot g → f.patch.id ≠ g.patch.id →
      f.patch.id ∉ ids (notes [] log) → g.patch.id ∉ ids (notes [] log) → (∀ d ∈ f.patch.deps, d ∈ ids (notes [] log)) →
      (∀ d ∈ g.patch.deps, d ∈ ids (notes [] log)) → replacement [patchOf (g.env 0).world g.patch] a = some n →
      ∃ s₁ l₁, many fuel none retries s [f, g] = some (s₁, l₁, [0, 0]) ∧ callDest s₁.mem a = some n := by
    intro f g n hf hg hne hf0 hg0 hfd hgd hga
    obtain ⟨s1, l1, rs, h1, h5, h6, -, h7, h8⟩ := C149_in_order_partial hI fuel xs hxs s log results h hn hz he [f, g] retries hr (by
      intro x hx; simp only [List.mem_cons, List.not_mem_nil, or_false] at hx; rcases hx with rfl | rfl
      · exact hf
      · exact hg) (by simpa using hne) (by
      intro x hx; simp only [List.mem_cons, List.not_mem_nil, or_false] at hx; rcases hx with rfl | rfl
      · exact hf0
      · exact hg0) ⟨hfd, fun d hd => by simp [hgd d hd], trivial⟩
    refine ⟨s1, l1, ?_, ?_⟩
    · match rs, h6, h5 with
      | [a, b], _, h5 =>
        have e1 := h5 a (by simp)
        have e2 := h5 b (by simp)
        rw [h1, e1, e2]
    · rw [h8 a ha, h7]
      simp only [List.map_cons, List.map_nil, List.reverse_cons, List.reverse_nil, List.nil_append, List.cons_append]
      rw [replacement_cons hga]
      rfl
  exact ⟨key f g new' hf hg hne hf0 hg0 hfd hgd hga, key g f new hg hf (fun h => hne h.symm) hg0 hf0 hgd hfd hfa⟩

/-! ### Examples -/

/-- A live patch for libA, found by the tool. -/
def demoFound (n : UInt8) (fs : List Nat) (deps : List Runtime.Id) : Found :=
  { early := none, patch := demoPatch n libA fs deps [], env := fun _ => demoTry }

theorem demo_session (n fs deps) (hfs : ∀ f ∈ fs, demoF f) (lib retries) :
    Session.Ok demoMem demoF demoSlot ((demoFound n fs deps).session lib retries) := by
  refine ⟨fun _ => demoTry_ok, fun m hm i => ?_⟩
  have : demoPatch n libA fs deps [] = m := Option.some.inj hm
  subst this
  exact demo_fits n libA fs deps [] hfs (by simp)

theorem demo_ok (n fs deps) (hfs : ∀ f ∈ fs, demoF f) : Found.Ok demoMem demoF demoSlot (demoFound n fs deps) :=
  ⟨by simp [demoFound], demo_session n fs deps hfs⟩

theorem demo_calm : Try.Calm demoTry := ⟨rfl, by simp [demoTry], rfl, rfl, rfl, fun _ => rfl, rfl⟩

theorem demo_quiet : Try.Quiet demoTry :=
  ⟨⟨rfl, by simp [demoTry]⟩, demo_calm, by simp [demoTry], rfl, rfl, fun _ => rfl, rfl, rfl⟩

theorem demo_smooth (n fs deps) (hfs : ∀ f ∈ fs, demoF f) (hlen : fs.length ≤ 10) : Found.Smooth demoF (demoFound n fs deps) := by
  refine ⟨rfl, fun _ => ⟨demo_calm, by simp [demoFound, demoTry], rfl, rfl, rfl, rfl⟩,
    fun _ => ⟨rfl, rfl, rfl, rfl, ?_, by simp [demoFound, demoPatch], by simp [demoFound, demoTry, demoWorld], ⟨0x5000, rfl, by decide⟩, ?_⟩⟩
  · intro u hu
    obtain ⟨f, hf, rfl⟩ := List.mem_map.mp hu
    refine ⟨hfs f hf, ?_⟩
    show 0x700000 + n.toNat ≠ 0
    omega
  · simp only [demoFound, demoPatch, List.length_map, List.length_nil]
    have : 400 ≤ InsnQueue.bufMax := by decide
    omega

/-- Replacing with `--revert-all=target`. -/
def replacing (n : UInt8) (fs : List Nat) (deps : List Runtime.Id) : Session := (demoFound n fs deps).session (some targetName) 3

/-- Patch 1 of libA, and 5 of libB. -/
def before : List Session := [demoSession 1 [0x1000] fun _ => demoTry,
  { lib := none, patch := some (demoPatch 5 libB [0x2000] [] []), retries := 3, env := fun _ => demoTry }]

theorem before_ok : ∀ x ∈ before, Session.Ok demoMem demoF demoSlot x := by
  intro x hx
  simp only [before, List.mem_cons, List.not_mem_nil, or_false] at hx
  rcases hx with rfl | rfl
  · exact demo_session 1 [0x1000] [] (by simp [demoF]) none 3
  · refine ⟨fun _ => demoTry_ok, fun m hm i => ?_⟩
    have : demoPatch 5 libB [0x2000] [] [] = m := Option.some.inj hm
    subst this
    exact demo_fits 5 libB [0x2000] [] [] (by simp [demoF]) (by simp)

theorem demo_before : ∃ s log results, sessions 10 (State.init demoMem) before = some (s, log, results) ∧ s.err = ENONE ∧ s.q.num = 0 ∧ s.q.size = 0 ∧
    notes [] log = [patchOf demoWorld (demoPatch 5 libB [0x2000] [] []), patchOf demoWorld (demoPatch 1 libA [0x1000] [] [])] ∧
    callDest s.mem 0x1000 = some 0x700001 := by
  have h : (sessions 10 (State.init demoMem) before).map (fun p => (p.1.err, p.1.q.num, p.1.q.size, notes [] p.2.1, callDest p.1.mem 0x1000)) =
      some (ENONE, 0, 0, [patchOf demoWorld (demoPatch 5 libB [0x2000] [] []), patchOf demoWorld (demoPatch 1 libA [0x1000] [] [])], some 0x700001) := by
    decide +kernel
  cases hs : sessions 10 (State.init demoMem) before with
  | none => rw [hs] at h; cases h
  | some p =>
    obtain ⟨s, l, r⟩ := p
    rw [hs] at h
    simp only [Option.map_some, Option.some.injEq, Prod.mk.injEq] at h
    obtain ⟨h1, h2, h3, h4, h5⟩ := h
    exact ⟨s, l, r, rfl, h1, h2, h3, h4, h5⟩

/-- Both of the runs below come to an end: patch 2 replaces 1; patch 3 depends on it, and fails. -/
theorem demo_replace (s log results) (h : sessions 10 (State.init demoMem) before = some (s, log, results)) :
    (∃ s' log', session 10 s (replacing 2 [0x1000] []) = some (s', log', 0) ∧ s'.err = ENONE) ∧
    (∃ s' log', session 10 s (replacing 3 [0x1000] [[1]]) = some (s', log', (EDEPEND : Int)) ∧ s'.err = ENONE) := by
  have hd : ((sessions 10 (State.init demoMem) before).bind fun p => (session 10 p.1 (replacing 2 [0x1000] [])).map fun q => (q.2.2, q.1.err)) = some (0, ENONE) ∧
      ((sessions 10 (State.init demoMem) before).bind fun p => (session 10 p.1 (replacing 3 [0x1000] [[1]])).map fun q => (q.2.2, q.1.err)) =
        some ((EDEPEND : Int), ENONE) := by
    constructor <;> decide +kernel
  obtain ⟨h1, h2⟩ := hd
  rw [h] at h1 h2
  simp only [Option.bind_some] at h1 h2
  constructor
  · cases hs : session 10 s (replacing 2 [0x1000] []) with
    | none => rw [hs] at h1; cases h1
    | some p =>
      obtain ⟨s', l, r⟩ := p
      rw [hs] at h1
      simp only [Option.map_some, Option.some.injEq, Prod.mk.injEq] at h1
      obtain ⟨rfl, h1⟩ := h1
      exact ⟨s', l, rfl, h1⟩
  · cases hs : session 10 s (replacing 3 [0x1000] [[1]]) with
    | none => rw [hs] at h2; cases h2
    | some p =>
      obtain ⟨s', l, r⟩ := p
      rw [hs] at h2
      simp only [Option.map_some, Option.some.injEq, Prod.mk.injEq] at h2
      obtain ⟨rfl, h2⟩ := h2
      exact ⟨s', l, rfl, h2⟩

/-- Replacing: calls go to the new function, and the patch of the other library stays. -/
example : ∃ s log results s' log', sessions 10 (State.init demoMem) before = some (s, log, results) ∧
    session 10 s (replacing 2 [0x1000] []) = some (s', log', 0) ∧ callDest s'.mem 0x1000 = some 0x700002 ∧ callDest s'.mem 0x2000 = some 0x700005 := by
  obtain ⟨s, log, results, h, -, -, -, hn, -⟩ := demo_before
  obtain ⟨⟨s', log', h', he⟩, -⟩ := demo_replace s log results h
  obtain ⟨i, -, hf⟩ := C147_replaced_partial demo_image 10 before before_ok s log results h (replacing 2 [0x1000] []) (demo_session 2 [0x1000] [] (by simp [demoF]) _ _)
    (fun _ => ⟨rfl, rfl⟩) (fun _ => demo_quiet.toAlone) targetName rfl _ rfl rfl (Or.inl rfl) s' log' h' (Or.inl he)
  rw [hn] at hf
  have hf : Follow demoMem demoF s'.mem (patchOf demoWorld (demoPatch 2 libA [0x1000] [] []) :: _) := hf
  refine ⟨s, log, results, s', log', h, h', ?_, ?_⟩
  · rw [hf _ (Or.inl rfl)]; decide +kernel
  · rw [hf _ (Or.inr rfl)]; decide +kernel

/-- Failing to replace: calls go to the original function, and not to that of patch 1. -/
example : ∃ s log results s' log', sessions 10 (State.init demoMem) before = some (s, log, results) ∧ callDest s.mem 0x1000 = some 0x700001 ∧
    session 10 s (replacing 3 [0x1000] [[1]]) = some (s', log', (EDEPEND : Int)) ∧ callDest s'.mem 0x1000 = some 0x1002 := by
  obtain ⟨s, log, results, h, he, hq, hz, hn, hc⟩ := demo_before
  obtain ⟨-, s', log', h', he'⟩ := demo_replace s log results h
  obtain ⟨-, hf, -⟩ := C147_left_without demo_image 10 before before_ok s log results h hq hz he (replacing 3 [0x1000] [[1]])
    (demo_session 3 [0x1000] [[1]] (by simp [demoF]) _ _) (fun _ => demo_quiet) ⟨by decide, rfl, rfl, rfl⟩ (by decide) targetName rfl _ rfl rfl (Or.inl rfl)
    (by decide +kernel) (patchOf demoWorld (demoPatch 1 libA [0x1000] [] [])) (by rw [hn]; simp) rfl (by decide) (by decide) s' log' _ h' (Or.inl he')
  rw [hn] at hf
  refine ⟨s, log, results, s', log', h, hc, h', ?_⟩
  rw [hf _ (Or.inl rfl)]
  decide +kernel

example : ∀ s log results s' log' res, sessions 10 (State.init demoMem) before = some (s, log, results) →
    session 10 s (replacing 3 [0x1000] [[1]]) = some (s', log', res) → s.q.num = 0 → s.q.size = 0 → res ≠ 0 → healthy s'.err →
    (s' = s ∧ ∀ e ∈ log', e.2 ≠ 0) ∨
    ((∃ j, (Request.revertAll ((replacing 3 [0x1000] [[1]]).env j).world (revertLib (replacing 3 [0x1000] [[1]]) targetName), 0) ∈ log') ∧
      Follow demoMem demoF s'.mem (without libA (notes [] log)) ∧ notes [] (log ++ log') = without libA (notes [] log)) :=
  fun s log results s' log' res h h' hq hz hr hh => C147_failure demo_image 10 before before_ok s log results h hq hz (replacing 3 [0x1000] [[1]])
    (demo_session 3 [0x1000] [[1]] (by simp [demoF]) _ _) (fun _ => demo_quiet) targetName rfl _ rfl (Or.inl rfl) s' log' res h' hr hh

/-- Two live patches in one run, with and without `--revert-all`: success is reported for both. -/
theorem demo_two : (∃ s' log', many 10 none 3 (State.init demoMem) [demoFound 1 [0x1000] [], demoFound 2 [0x2000] []] = some (s', log', [0, 0]) ∧ s'.err = ENONE) ∧
    (∃ s' log', many 10 (some targetName) 3 (State.init demoMem) [demoFound 1 [0x1000] [], demoFound 2 [0x2000] []] = some (s', log', [0, 0]) ∧ s'.err = ENONE) := by
  have hd : (many 10 none 3 (State.init demoMem) [demoFound 1 [0x1000] [], demoFound 2 [0x2000] []]).map (fun q => (q.2.2, q.1.err)) = some ([0, 0], ENONE) ∧
      (many 10 (some targetName) 3 (State.init demoMem) [demoFound 1 [0x1000] [], demoFound 2 [0x2000] []]).map (fun q => (q.2.2, q.1.err)) = some ([0, 0], ENONE) := by
    constructor <;> decide +kernel
  obtain ⟨h1, h2⟩ := hd
  constructor
  · cases hs : many 10 none 3 (State.init demoMem) [demoFound 1 [0x1000] [], demoFound 2 [0x2000] []] with
    | none => rw [hs] at h1; cases h1
    | some p =>
      obtain ⟨s', l, r⟩ := p
      rw [hs] at h1
      simp only [Option.map_some, Option.some.injEq, Prod.mk.injEq] at h1
      obtain ⟨rfl, h1⟩ := h1
      exact ⟨s', l, rfl, h1⟩
  · cases hs : many 10 (some targetName) 3 (State.init demoMem) [demoFound 1 [0x1000] [], demoFound 2 [0x2000] []] with
    | none => rw [hs] at h2; cases h2
    | some p =>
      obtain ⟨s', l, r⟩ := p
      rw [hs] at h2
      simp only [Option.map_some, Option.some.injEq, Prod.mk.injEq] at h2
      obtain ⟨rfl, h2⟩ := h2
      exact ⟨s', l, rfl, h2⟩

example : ∃ s' log', many 10 none 3 (State.init demoMem) [demoFound 1 [0x1000] [], demoFound 2 [0x2000] []] = some (s', log', [0, 0]) ∧
    patchOf demoWorld (demoPatch 1 libA [0x1000] [] []) ∈ notes [] ([] ++ log') := by
  obtain ⟨⟨s', log', h, he⟩, -⟩ := demo_two
  obtain ⟨h1, -, -⟩ := C148_all_in_force_partial demo_image 10 [] (by simp) (State.init demoMem) [] [] rfl
    [demoFound 1 [0x1000] [], demoFound 2 [0x2000] []] 3 (by
      intro f hf
      simp only [List.mem_cons, List.not_mem_nil, or_false] at hf
      rcases hf with rfl | rfl
      · exact ⟨demo_ok 1 [0x1000] [] (by simp [demoF]), rfl, fun _ => ⟨rfl, rfl, rfl⟩⟩
      · exact ⟨demo_ok 2 [0x2000] [] (by simp [demoF]), rfl, fun _ => ⟨rfl, rfl, rfl⟩⟩) s' log' [0, 0] h
  obtain ⟨_, hi⟩ := h1 (demoFound 1 [0x1000] []) 0 (by simp) rfl
  exact ⟨s', log', h, hi⟩

/-- With it, the first is gone: its function is not replaced. -/
example : ∃ s' log', many 10 (some targetName) 3 (State.init demoMem) [demoFound 1 [0x1000] [], demoFound 2 [0x2000] []] = some (s', log', [0, 0]) ∧
    only libA (notes [] ([] ++ log')) = [patchOf demoWorld (demoPatch 2 libA [0x2000] [] [])] := by
  obtain ⟨-, s', log', h, he⟩ := demo_two
  obtain ⟨i, h1, -⟩ := C148_last_only demo_image 10 [] (by simp) (State.init demoMem) [] [] rfl [demoFound 1 [0x1000] []] (demoFound 2 [0x2000] []) 3 targetName
    (by simpa using demo_ok 1 [0x1000] [] (by simp [demoF])) (demo_ok 2 [0x2000] [] (by simp [demoF])) rfl rfl (Or.inl rfl)
    (fun _ => ⟨demo_quiet.toAlone, rfl, rfl⟩) s' log' [0] h (Or.inl he)
  exact ⟨s', log', h, h1⟩

theorem demo_both (n m : UInt8) (fs gs deps) (hfs : ∀ f ∈ fs, demoF f) (hgs : ∀ f ∈ gs, demoF f) (h1 : fs.length ≤ 10) (h2 : gs.length ≤ 10) :
    ∀ f ∈ [demoFound n fs [], demoFound m gs deps], Found.Smooth demoF f ∧ Found.Ok demoMem demoF demoSlot f := by
  intro f hf
  simp only [List.mem_cons, List.not_mem_nil, or_false] at hf
  rcases hf with rfl | rfl
  · exact ⟨demo_smooth n fs [] hfs h1, demo_ok n fs [] hfs⟩
  · exact ⟨demo_smooth m gs deps hgs h2, demo_ok m gs deps hgs⟩

/-- Patch 2 depends on 1: in order, -/
example : ∃ s' log' rs, many 10 none 3 (State.init demoMem) [demoFound 1 [0x1000] [], demoFound 2 [0x1000, 0x2000] [[1]]] = some (s', log', rs) ∧
    (∀ r ∈ rs, r = 0) ∧ callDest s'.mem 0x1000 = some 0x700002 := by
  obtain ⟨s', log', rs, h1, h2, -, -, h5, h6⟩ := C149_in_order_partial demo_image 10 [] (by simp) (State.init demoMem) [] [] rfl rfl rfl rfl
    [demoFound 1 [0x1000] [], demoFound 2 [0x1000, 0x2000] [[1]]] 3 (by decide) (demo_both 1 2 _ _ _ (by simp [demoF]) (by simp [demoF]) (by decide) (by decide))
    (by decide) (by simp [ids, notes]) ⟨by simp [demoFound, demoPatch], by simp [demoFound, demoPatch], trivial⟩
  refine ⟨s', log', rs, h1, h2, ?_⟩
  rw [h6 _ (Or.inl rfl), h5]
  decide +kernel

/-- in the wrong order, -/
example : ∃ s' log' r, many 10 none 3 (State.init demoMem) [demoFound 2 [0x1000, 0x2000] [[1]], demoFound 1 [0x1000] []] = some (s', log', [r, 0]) ∧ r ≠ 0 := by
  obtain ⟨-, s₂, l₂, r, h1, h2, -⟩ := C149_wrong_order demo_image 10 [] (by simp) (State.init demoMem) [] [] rfl rfl rfl rfl
    (demoFound 1 [0x1000] []) (demoFound 2 [0x1000, 0x2000] [[1]]) 3 (by decide)
    ⟨demo_smooth 1 _ _ (by simp [demoF]) (by decide), demo_ok 1 _ _ (by simp [demoF])⟩ ⟨demo_smooth 2 _ _ (by simp [demoF]) (by decide), demo_ok 2 _ _ (by simp [demoF])⟩
    (by decide) (by simp [ids, notes]) (by simp [ids, notes]) (by simp [demoFound, demoPatch]) (by simp [demoFound, demoPatch]) (by simp [demoFound, demoPatch])
  exact ⟨s₂, l₂, r, h1, h2⟩

/-- and in the wrong order, twice. -/
example : ∃ s' log' rs, again 10 3 [demoFound 2 [0x1000, 0x2000] [[1]], demoFound 1 [0x1000] []] 2 (State.init demoMem) = some (s', log', rs) ∧
    [2] ∈ ids (notes [] ([] ++ log')) := by
  obtain ⟨s', log', rs, h1, -, h3, -⟩ := C149_again demo_image 10 [] (by simp) (State.init demoMem) [] [] rfl rfl rfl rfl
    [demoFound 2 [0x1000, 0x2000] [[1]], demoFound 1 [0x1000] []] 3 (by decide) (by
      intro f hf
      exact demo_both 1 2 [0x1000] [0x1000, 0x2000] [[1]] (by simp [demoF]) (by simp [demoF]) (by decide) (by decide) f (by
        simp only [List.mem_cons, List.not_mem_nil, or_false] at hf ⊢; exact hf.symm))
    [demoFound 1 [0x1000] [], demoFound 2 [0x1000, 0x2000] [[1]]] (List.Perm.swap _ _ _) ⟨by simp [demoFound, demoPatch], by simp [demoFound, demoPatch], trivial⟩
  exact ⟨s', log', rs, h1, h3 (demoFound 2 [0x1000, 0x2000] [[1]]) (by simp)⟩

/-- Two live patches for the same function. -/
example : (∃ s₁ l₁, many 10 none 3 (State.init demoMem) [demoFound 1 [0x1000] [], demoFound 2 [0x1000] []] = some (s₁, l₁, [0, 0]) ∧ callDest s₁.mem 0x1000 = some 0x700002) ∧
    (∃ s₂ l₂, many 10 none 3 (State.init demoMem) [demoFound 2 [0x1000] [], demoFound 1 [0x1000] []] = some (s₂, l₂, [0, 0]) ∧ callDest s₂.mem 0x1000 = some 0x700001) :=
  C149_last_wins demo_image 10 [] (by simp) (State.init demoMem) [] [] rfl rfl rfl rfl (demoFound 1 [0x1000] []) (demoFound 2 [0x1000] []) 3 (by decide)
    ⟨demo_smooth 1 _ _ (by simp [demoF]) (by decide), demo_ok 1 _ _ (by simp [demoF])⟩ ⟨demo_smooth 2 _ _ (by simp [demoF]) (by decide), demo_ok 2 _ _ (by simp [demoF])⟩
    (by decide) (by simp [ids, notes]) (by simp [ids, notes]) (by simp [demoFound, demoPatch]) (by simp [demoFound, demoPatch]) 0x1000 (Or.inl rfl) _ _
    (by decide +kernel) (by decide +kernel)

end Verif.Many
