import Verif.PowerCut.Lemmas
import Verif.Cut.Props
import Verif.Power.Props
import Verif.PowerTools.Lemmas

/-! Properties C228 and C229: what a request on POWER that is cut short by a signal leaves behind. -/

namespace Verif.Power.Cut

open Verif.Runtime hiding Good Inv area loadPatch_apply_ok
open Verif.Cut (Md Proc Env Item items fill Pc fatal Event full fill_items full_mt full_type)
open Verif.Runtime.Spec (Idle replacement trackAll patchOf)
open Power.Spec (callDest entryOff body Image Fits)
open Verif.Cut.Spec

variable {tm : List UInt8}

/-! ### C228: requests that are not cut, or cut where it does not matter -/

/-- **C228** (part) A request that runs to its end, nothing being left from an earlier one, does what
`Verif.Power.applyPatch` says, and leaves nothing either. -/
theorem C228_uncut_partial {p : Proc} (hr : p.ref = none) (hs : p.stuck = false) (v : Env) (buf : Except Err Meta)
    (a : Option Nat) (r : Proc) :
    Happens tm p (.whole v buf) a r ↔
      a = some (applyPatch tm v.w buf p.st).2 ∧ r = ⟨settle (applyPatch tm v.w buf p.st).1, none, false⟩ :=
  whole_iff (whole_reaches v buf p hr hs) a r

theorem steps_zero_gate {v buf p k} (hc : Calm p) (hv : ready v) (h : (steps tm v buf k (p, .gate)).2 = .gate ∨
    (steps tm v buf k (p, .gate)).2 = .alloc) : (steps tm v buf k (p, .gate)).1 = p := by
  have hg : step tm v buf (p, .gate) = (p, .alloc) := by
    rw [gate_calm hc.idle hc.err hc.free _ hv, hc.ref]; rfl
  match k with
  | 0 => rfl
  | 1 => show (step tm v buf (p, .gate)).1 = p; rw [hg]
  | k + 2 =>
    exfalso
    -- neither place is ever reached again
    have key : ∀ n (c : Proc × Pc), c.2 ≠ .gate → c.2 ≠ .alloc →
        (steps tm v buf n c).2 ≠ .gate ∧ (steps tm v buf n c).2 ≠ .alloc := by
      intro n
      induction n with
      | zero => exact fun c h1 h2 => ⟨h1, h2⟩
      | succ n ih =>
        intro c h1 h2
        refine ih _ ?_ ?_ <;>
        · obtain ⟨q, pc⟩ := c
          unfold step
          split <;> simp_all <;> (repeat' split) <;> simp_all [fatal]
    have hs : steps tm v buf (k + 2) (p, .gate) = steps tm v buf k (step tm v buf (p, .alloc)) := by
      show steps tm v buf k (step tm v buf (step tm v buf (p, .gate))) = _
      rw [hg]
    rw [hs] at h
    have := key k (step tm v buf (p, .alloc)) (by cases buf <;> simp [step]) (by cases buf <;> simp [step])
    rcases h with h | h
    · exact this.1 h
    · exact this.2 h

/-- **C228** (part) A request that is cut before it takes up the metadata leaves the process as it was. -/
theorem C228_before_partial {p : Proc} (hc : Calm p) {v : Env} (hv : ready v) {buf : Except Err Meta} {k : Nat}
    (hk : (steps tm v buf k (p, .gate)).2 = .gate ∨ (steps tm v buf k (p, .gate)).2 = .alloc) (flush : Bool) :
    leave tm v buf k false flush p = p := by
  unfold leave
  rw [steps_zero_gate hc hv hk]
  obtain ⟨st, ref, stuck⟩ := p
  simp only [Bool.or_false, settle_clean hc.idle]
  cases flush <;> rfl

/-- **C228** (part) A request that is cut after its routine has returned is one that was not cut. -/
theorem C228_after_partial {p : Proc} {v : Env} {buf : Except Err Meta} {k : Nat} {e : Err}
    (hk : (steps tm v buf k (p, .gate)).2 = .ret e) :
    Happens tm p (.whole v buf) (some e) (leave tm v buf k false true p) := by
  have h := Happens.whole p v buf k (steps tm v buf k (p, .gate)).1 e (by rw [← hk])
  unfold leave
  simpa using h

/-! ### C228: cut inside the allocator or the loader -/

theorem gate_stuck (w : World) (hw : w.busy = true) (s : State) :
    ∃ e, e ≠ 0 ∧ (gate w s).2 = some e ∧ (gate w s).1.patches = s.patches ∧ (gate w s).1.roots = s.roots ∧
      (gate w s).1.univ = s.univ ∧ (gate w s).1.mem = s.mem ∧ (gate w s).1.q = s.q := by
  unfold gate
  by_cases he : s.err ≠ ENONE
  · rw [if_pos he]
    exact ⟨s.err, he, rfl, rfl, rfl, rfl, rfl, rfl⟩
  · rw [if_neg he]
    unfold InsnQueue.ensureEmptiness
    by_cases hq : s.q.num > 0 ∨ s.q.size > 0
    · simp only [if_pos hq, ne_eq, show ¬ (1 : Nat) = 0 by decide, not_false_eq_true, if_true]
      exact ⟨EINSNQ, by decide, by simp⟩
    · simp only [if_neg hq, ne_eq, not_true_eq_false, if_false, hw, if_true]
      exact ⟨EAGAIN, by decide, by simp⟩

/-- Nothing about the patches differs. -/
structure Same (p q : Proc) : Prop where
  stuck : q.stuck = p.stuck
  patches : q.st.patches = p.st.patches
  roots : q.st.roots = p.st.roots
  univ : q.st.univ = p.st.univ
  mem : Idle p.st → Idle q.st ∧ q.st.mem = p.st.mem

theorem Same.trans {p q r : Proc} (h : Same p q) (h' : Same q r) : Same p r :=
  ⟨h'.stuck.trans h.stuck, h'.patches.trans h.patches, h'.roots.trans h.roots, h'.univ.trans h.univ,
    fun hi => ⟨(h'.mem (h.mem hi).1).1, ((h'.mem (h.mem hi).1).2).trans (h.mem hi).2⟩⟩

theorem settle_fields (s : State) : (settle s).patches = s.patches ∧ (settle s).roots = s.roots ∧
    (settle s).univ = s.univ := ⟨rfl, rfl, rfl⟩

theorem same_settle {p : Proc} {s : State} (h1 : s.patches = p.st.patches) (h2 : s.roots = p.st.roots)
    (h3 : s.univ = p.st.univ) (h4 : s.mem = p.st.mem) (h5 : s.q = p.st.q) (ref) (f : Bool) :
    Same p ⟨if f then settle s else s, ref, p.stuck⟩ := by
  refine ⟨rfl, ?_, ?_, ?_, ?_⟩
  · cases f
    · exact h1
    · exact (settle_fields s).1.trans h1
  · cases f
    · exact h2
    · exact (settle_fields s).2.1.trans h2
  · cases f
    · exact h3
    · exact (settle_fields s).2.2.trans h3
  · intro hi
    have hs : Idle s := ⟨by rw [h5]; exact hi.num, by rw [h5]; exact hi.size, by rw [h5]; exact hi.ver⟩
    rw [settle_clean hs]
    cases f <;> exact ⟨hs, h4⟩

theorem steps_stuck {p : Proc} (hs : p.stuck = true) (v buf) (n : Nat) :
    ∃ e s, e ≠ 0 ∧ steps tm v buf (n + 1) (p, .gate) = ({ p with st := s }, .ret e) ∧ s.patches = p.st.patches ∧
      s.roots = p.st.roots ∧ s.univ = p.st.univ ∧ s.mem = p.st.mem ∧ s.q = p.st.q := by
  obtain ⟨e, he, h1, h2⟩ := gate_stuck (v.entry p) (by simp [Env.entry, hs]) p.st
  generalize hg : gate (v.entry p) p.st = g at h1 h2
  obtain ⟨s, o⟩ := g
  simp only at h1 h2
  subst h1
  refine ⟨e, s, he, ?_, h2⟩
  show steps tm v buf n (step tm v buf (p, .gate)) = _
  simp only [step, hg]
  exact steps_ret v buf n _ e

theorem toggle_fields (s : State) : (Runtime.toggle s).1.patches = s.patches ∧ (Runtime.toggle s).1.roots = s.roots ∧
    (Runtime.toggle s).1.univ = s.univ ∧ (Runtime.toggle s).1.mem = s.mem ∧ (Runtime.toggle s).1.q = s.q := by
  unfold Runtime.toggle
  by_cases h1 : s.err = ENONE
  · simp [h1]
  · by_cases h2 : s.err = EUSRBLOCKED
    · have h3 : ¬ EUSRBLOCKED = ENONE := by decide
      simp [h2, h3]
    · simp [h1, h2]

theorem happens_stuck {p q : Proc} {ev a} (hs : p.stuck = true) (h : Happens tm p ev a q) :
    Same p q ∧ (asks ev → a ≠ some 0) := by
  cases h with
  | whole v buf n q e h =>
    cases n with
    | zero => simp [steps] at h
    | succ n =>
      obtain ⟨e', s, he, h', h1, h2, h3, h4, h5⟩ := steps_stuck hs v buf n
      rw [h'] at h
      simp only [Prod.mk.injEq, Pc.ret.injEq] at h
      obtain ⟨rfl, rfl⟩ := h
      refine ⟨same_settle h1 h2 h3 h4 h5 p.ref true, fun _ => ?_⟩
      intro hc
      exact he (Option.some.inj hc)
  | cut v buf k inside flush h hu =>
    refine ⟨?_, fun h => h.elim⟩
    unfold leave
    cases k with
    | zero =>
      have := same_settle (p := p) (s := p.st) rfl rfl rfl rfl rfl p.ref flush
      simpa [steps, hs] using this
    | succ n =>
      obtain ⟨e', s, he, h', h1, h2, h3, h4, h5⟩ := steps_stuck hs v buf n
      rw [h']
      have := same_settle (p := p) (s := s) h1 h2 h3 h4 h5 p.ref flush
      simpa [hs] using this
  | revertAll w lib fuel s e h =>
    obtain ⟨e', he, h1, h2⟩ := gate_stuck { w with busy := w.busy || p.stuck } (by simp [hs]) p.st
    unfold Power.revertAll at h
    generalize hg : gate { w with busy := w.busy || p.stuck } p.st = g at h1 h2 h
    obtain ⟨s', o⟩ := g
    simp only at h1 h2
    subst h1
    simp only [Option.some.injEq, Prod.mk.injEq] at h
    obtain ⟨rfl, rfl⟩ := h
    refine ⟨same_settle h2.1 h2.2.1 h2.2.2.1 h2.2.2.2.1 h2.2.2.2.2 p.ref true, fun _ => ?_⟩
    intro hc
    exact he (Option.some.inj hc)
  | toggle =>
    obtain ⟨h1, h2, h3, h4, h5⟩ := toggle_fields p.st
    refine ⟨⟨rfl, h1, h2, h3, fun hi => ⟨⟨?_, ?_, ?_⟩, h4⟩⟩, fun h => h.elim⟩
    · show (Runtime.toggle p.st).1.q.num = _
      rw [h5]; exact hi.num
    · show (Runtime.toggle p.st).1.q.size = _
      rw [h5]; exact hi.size
    · show (Runtime.toggle p.st).1.q.version ≤ _
      rw [h5]; exact hi.ver

theorem run_stuck {p q : Proc} {es : List Event} {as : List (Option Nat)} (hs : p.stuck = true) (h : Run tm p es as q) :
    q.stuck = true ∧ q.st.patches = p.st.patches ∧ q.st.roots = p.st.roots ∧ q.st.univ = p.st.univ ∧
      (Idle p.st → q.st.mem = p.st.mem) ∧
      ∀ (i : Nat) (e : Event) (a : Option Nat), es[i]? = some e → as[i]? = some a → asks e → a ≠ some 0 := by
  have key : Same p q ∧ ∀ (i : Nat) (e : Event) (a : Option Nat), es[i]? = some e → as[i]? = some a → asks e → a ≠ some 0 := by
    induction h with
    | nil p => exact ⟨⟨rfl, rfl, rfl, rfl, fun hi => ⟨hi, rfl⟩⟩, by simp⟩
    | cons h1 _ ih =>
      obtain ⟨hsame, ha⟩ := happens_stuck hs h1
      obtain ⟨hsame', ha'⟩ := ih (hsame.stuck.trans hs)
      refine ⟨hsame.trans hsame', ?_⟩
      intro i e a he hb
      cases i with
      | zero =>
        simp only [List.getElem?_cons_zero, Option.some.injEq] at he hb
        subst he hb
        exact ha
      | succ i =>
        simp only [List.getElem?_cons_succ] at he hb
        exact ha' i e a he hb
  exact ⟨key.1.stuck.trans hs, key.1.patches, key.1.roots, key.1.univ, fun hi => (key.1.mem hi).2, key.2⟩

/-- **C228** fails: after a request was cut inside a function of the allocator or the loader, every later request, whatever
it is, whether cut or not, is refused and changes nothing about the patches, for ever. -/
theorem C228_stuck {p₀ p q : Proc} {v : Env} {buf : Except Err Meta} {k : Nat} {flush : Bool} {b : Option Nat}
    (hb : Happens tm p₀ (.cut v buf k true flush) b p) {es : List Event} {as : List (Option Nat)} (h : Run tm p es as q) :
    q.stuck = true ∧ q.st.patches = p.st.patches ∧ q.st.roots = p.st.roots ∧ q.st.univ = p.st.univ ∧
      (Idle p.st → q.st.mem = p.st.mem) ∧
      ∀ (i : Nat) (e : Event) (a : Option Nat), es[i]? = some e → as[i]? = some a → asks e → a ≠ some 0 := by
  have hs : p.stuck = true := by
    cases hb with
    | cut => simp [leave]
  exact run_stuck hs h

/-! ### C228: cut after the container was loaded -/

theorem applyUnits_accepting (v : Env) (lib id) (us : List UnitM) (s : State) :
    applyUnits tm (accepting v).w lib id us s = applyUnits tm v.w lib id us s := by
  induction us generalizing s with
  | nil => rfl
  | cons u us ih => simp only [applyUnits, ih]; rfl

theorem applyRefs_accepting (v : Env) (a b c) (us : List RefM) (s : State) :
    applyRefs (accepting v).w a b c us s = applyRefs v.w a b c us s := by
  induction us generalizing s with
  | nil => rfl
  | cons u us ih => simp only [applyRefs, ih]; rfl

theorem resolveUnits_accepting (v : Env) (lib) (us : List UnitM) :
    resolveUnits (accepting v).w lib us = resolveUnits v.w lib us := by
  induction us with
  | nil => rfl
  | cons u us ih => simp only [resolveUnits, ih]; rfl

theorem rest_accepting (v : Env) (m : Meta) (s : State) : rest tm (accepting v).w m s = rest tm v.w m s := by
  unfold rest applyRest stateUpdate applyAllUnits
  simp only [resolveUnits_accepting, applyUnits_accepting, applyRefs_accepting]
  rfl

theorem applyPatch_accepting {v : Env} {m : Meta} {s : State} (hi : Idle s) (he : s.err = ENONE) (hv : ready v) {w : World}
    (hs : m.type ≠ 2 → sanity w m s = 0) :
    applyPatch tm (accepting v).w (.ok m) s = rest tm v.w m s := by
  have hg : gate (accepting v).w s = (s, none) := by
    rw [gate_clean hi, if_neg (by rw [he]; decide), if_neg (by simpa [accepting, ready] using hv)]
  unfold applyPatch
  rw [hg]
  simp only
  rw [loadPatch_rest]
  have hsan : m.type ≠ 2 → sanity (accepting v).w m s = 0 := by
    intro h
    obtain ⟨h1, h2⟩ := sanity_zero (hs h)
    unfold sanity
    rw [if_neg (by simp [accepting]), if_neg (by simp [h1]), if_neg (by simp [h2])]
  rw [if_neg (fun h => h.2 (hsan h.1)), if_neg (by simp [accepting])]
  exact rest_accepting v m s

/-- **C228** fails: if a request for `m` is cut after the container was loaded and before the patch is put into the list, the
next request, for whatever patch and whether to apply or to revert it, does what a request for `m` would do. -/
theorem C228_earlier_instead {p : Proc} (hc : Calm p) {v : Env} (hv : ready v) {m : Meta} {k : Nat}
    (hk : loaded (steps tm v (.ok m) k (p, .gate)).2) (flush : Bool) {v' : Env} (hv' : ready v') (buf' : Except Err Meta)
    (a : Option Nat) (r : Proc) :
    Happens tm (leave tm v (.ok m) k false flush p) (.whole v' buf') a r ↔ Happens tm p (.whole (accepting v') (.ok m)) a r := by
  have ht := track (tm := tm) (m := m) hc hv k
  have hst : (m.type ≠ 2 → sanity v.w m p.st = 0) ∧
      leave tm v (.ok m) k false flush p = { p with ref := some (full m (decide (m.type ≠ 2))) } := by
    unfold leave
    generalize steps tm v (.ok m) k (p, .gate) = c at hk ht
    obtain ⟨q, pc⟩ := c
    cases pc <;> simp only [loaded] at hk
    all_goals
      simp only [Track] at ht
      obtain ⟨h1, rfl⟩ := ht
      refine ⟨h1, ?_⟩
      simp only [Bool.or_false, settle_clean hc.idle]
      cases flush <;> rfl
  obtain ⟨hs, hl⟩ := hst
  rw [hl, C228_uncut_partial hc.ref hc.free, applyPatch_accepting hc.idle hc.err hv' hs]
  have hd : Reaches tm v' buf' ({ p with ref := some (full m (decide (m.type ≠ 2))) }, .gate)
      (⟨(rest tm v'.w m p.st).1, none, p.stuck⟩, .ret (rest tm v'.w m p.st).2) := by
    refine .head ?_
    rw [gate_calm (p := { p with ref := some (full m (decide (m.type ≠ 2))) }) hc.idle hc.err hc.free _ hv']
    simp only [Option.isSome_some, if_true]
    refine (dispatch_reaches (md := full m (decide (m.type ≠ 2))) rfl rfl ?_ rfl).trans ?_
    · rw [full_type]
      intro h
      simpa [full] using h
    · simp only [rest_full]
      exact .refl
  rw [whole_iff hd, hc.free]

theorem applyRefs_patches (w a b c) (rs : List RefM) (s : State) : (applyRefs w a b c rs s).1.patches = s.patches := by
  induction rs generalizing s with
  | nil => rfl
  | cons r rs ih =>
    unfold applyRefs
    simp only
    generalize (if r.patchOff = 0 then w.newSym r.refName else (c + r.patchOff) % 2 ^ 64) = x
    by_cases h : r.patchOff = 0 ∧ x = 0
    · rw [if_pos h]
    · rw [if_neg h, ih]
      simp

theorem applyRest_zero {w m s} (h : (applyRest tm w m s).2 = 0) :
    ∃ x, x.id = m.id ∧ (applyRest tm w m s).1.patches = x :: s.patches := by
  unfold applyRest at h ⊢
  cases hu : stateUpdate w m s with
  | none => rw [hu] at h; simp [ESTATE] at h
  | some s1 =>
    rw [hu] at h
    simp only at h ⊢
    have h1 : ∃ x, x.id = m.id ∧ s1.patches = x :: s.patches := by
      unfold stateUpdate at hu
      cases hr : resolveUnits w m.lib m.units with
      | none => rw [hr] at hu; simp at hu
      | some us =>
        rw [hr] at hu
        simp only [Option.map_some, Option.some.injEq] at hu
        subst hu
        exact ⟨_, rfl, rfl⟩
    obtain ⟨x, hx, hp⟩ := h1
    refine ⟨x, hx, ?_⟩
    have h2 : (applyAllUnits tm w m s1).1.patches = s1.patches := by
      unfold applyAllUnits
      have := applyUnits_patches (tm := tm) w m.lib m.id m.units { s1 with univ := s1.univ + 1 }
      generalize applyUnits tm w m.lib m.id m.units { s1 with univ := s1.univ + 1 } = g at this ⊢
      obtain ⟨s2, e2⟩ := g
      simp only at this ⊢
      split
      · exact this
      split
      · exact this
      split
      · exact this
      split
      · exact this
      · rw [applyRefs_patches]; exact this
    split at h
    · rename_i he
      exact absurd h he
    · rename_i he
      rw [if_neg he, h2, hp]

/-- **C228** fails: the next request may then be answered with success although the patch it is about is not applied, the
earlier one being applied in its place. -/
theorem C228_wrong_patch {p : Proc} (hc : Calm p) {v : Env} (hv : ready v) {m : Meta} (ht : m.type = 1) {k : Nat}
    (hk : loaded (steps tm v (.ok m) k (p, .gate)).2) (flush : Bool) {v' : Env} (hv' : ready v') {m' : Meta}
    (hne : m'.id ≠ m.id) (hn : m'.id ∉ applied p) {r : Proc}
    (h : Happens tm (leave tm v (.ok m) k false flush p) (.whole v' (.ok m')) (some 0) r) :
    applied r = m.id :: applied p ∧ m'.id ∉ applied r := by
  rw [C228_earlier_instead hc hv hk flush hv', C228_uncut_partial hc.ref hc.free] at h
  obtain ⟨h0, rfl⟩ := h
  have hs : m.type ≠ 2 → sanity v.w m p.st = 0 := by
    have htr := track (tm := tm) (m := m) hc hv k
    generalize steps tm v (.ok m) k (p, .gate) = c at hk htr
    obtain ⟨q, pc⟩ := c
    cases pc <;> simp only [loaded] at hk
    all_goals exact htr.1
  rw [applyPatch_accepting hc.idle hc.err hv' hs] at h0 ⊢
  have hrest : rest tm v'.w m p.st = applyRest tm v'.w m p.st := by unfold rest; rw [if_pos ht]
  rw [hrest] at h0 ⊢
  obtain ⟨x, hx, hp⟩ := applyRest_zero (Option.some.inj h0).symm
  have hap : applied ⟨settle (applyRest tm v'.w m p.st).1, none, false⟩ = m.id :: applied p := by
    unfold applied
    rw [(settle_fields _).1, hp, List.map_cons, hx]
  rw [hap]
  refine ⟨rfl, ?_⟩
  simp only [List.mem_cons, not_or]
  exact ⟨hne, hn⟩

/-! ### C228: cut while applying -/

theorem gate_cases (w : World) (s : State) :
    (∃ e s', e ≠ 0 ∧ gate w s = (s', some e)) ∨ ∃ s', gate w s = (s', none) ∧ s'.patches = s.patches := by
  unfold gate
  by_cases he : s.err ≠ ENONE
  · rw [if_pos he]
    exact Or.inl ⟨s.err, _, he, rfl⟩
  · rw [if_neg he]
    unfold InsnQueue.ensureEmptiness
    by_cases hq : s.q.num > 0 ∨ s.q.size > 0
    · simp only [if_pos hq, ne_eq, show ¬ (1 : Nat) = 0 by decide, not_false_eq_true, if_true]
      exact Or.inl ⟨EINSNQ, _, by decide, rfl⟩
    · simp only [if_neg hq, ne_eq, not_true_eq_false, if_false]
      by_cases hw : w.busy = true
      · rw [if_pos hw]
        exact Or.inl ⟨EAGAIN, _, by decide, rfl⟩
      · rw [if_neg hw]
        exact Or.inr ⟨_, rfl, rfl⟩

/-- **C228** fails: if a request is cut while the patch is being applied, and the next request succeeds, whatever it is for,
the patch is in the list of applied ones twice. -/
theorem C228_twice {p : Proc} (hc : Calm p) {v : Env} (hv : ready v) {m : Meta} {k : Nat}
    (hk : applying (steps tm v (.ok m) k (p, .gate)).2) (inside flush : Bool) {v' : Env} {buf' : Except Err Meta} {r : Proc}
    (h : Happens tm (leave tm v (.ok m) k inside flush p) (.whole v' buf') (some 0) r) :
    applied r = m.id :: m.id :: applied p := by
  have hl : m.type = 1 ∧ (leave tm v (.ok m) k inside flush p).ref = some (full m true) ∧
      ∃ x, x.id = m.id ∧ (leave tm v (.ok m) k inside flush p).st.patches = x :: p.st.patches := by
    have ht := track (tm := tm) (m := m) hc hv k
    unfold leave
    generalize steps tm v (.ok m) k (p, .gate) = c at hk ht
    obtain ⟨q, pc⟩ := c
    have key : m.type = 1 ∧ q.ref = some (full m true) ∧ ∃ x, x.id = m.id ∧ q.st.patches = x :: p.st.patches := by
      cases pc with
      | count =>
        obtain ⟨h1, x, hx, rfl⟩ := ht
        exact ⟨h1.1, rfl, x, hx, rfl⟩
      | detour todo =>
        obtain ⟨h1, hr, _, x, hx, done, _, ha⟩ := ht
        refine ⟨h1.1, hr, x, hx, ?_⟩
        have := applyUnits_patches (tm := tm) v.w m.lib m.id done (begun p.st x)
        rw [ha] at this
        exact this
      | entry old new todo =>
        obtain ⟨h1, hr, _, x, hx, done, u, s, _, ha, _, _, _, _, hst⟩ := ht
        refine ⟨h1.1, hr, x, hx, ?_⟩
        have := applyUnits_patches (tm := tm) v.w m.lib m.id done (begun p.st x)
        rw [ha] at this
        simp only at hst
        rw [hst, addDetour_patches]
        exact this
      | base =>
        obtain ⟨h1, hr, _, x, hx, hp⟩ := ht
        exact ⟨h1, hr, x, hx, hp⟩
      | refs so todo =>
        obtain ⟨h1, hr, _, x, hx, hp⟩ := ht
        exact ⟨h1, hr, x, hx, hp⟩
      | _ => exact hk.elim
    refine ⟨key.1, key.2.1, ?_⟩
    obtain ⟨x, hx, hp⟩ := key.2.2
    refine ⟨x, hx, ?_⟩
    cases flush
    · exact hp
    · exact (settle_fields _).1.trans hp
  obtain ⟨h1, hr, x, hx, hp⟩ := hl
  generalize leave tm v (.ok m) k inside flush p = p' at h hr hp
  rcases gate_cases (v'.entry p') p'.st with ⟨e, s', he, hg⟩ | ⟨s', hg, hp'⟩
  · have : Reaches tm v' buf' (p', .gate) ({ p' with st := s' }, .ret e) := by
      refine .head ?_
      simp only [step, hg]
      exact .refl
    rw [whole_iff this] at h
    exact absurd (Option.some.inj h.1).symm he
  · have h2 : m.type ≠ 2 := by rw [h1]; decide
    have hd : Reaches tm v' buf' (p', .gate) (⟨(applyRest tm v'.w m s').1, none, p'.stuck⟩, .ret (applyRest tm v'.w m s').2) := by
      refine .head ?_
      simp only [step, hg, hr, Option.isSome_some, if_true]
      have := dispatch_reaches (tm := tm) (v := v') (buf := buf') (p := { p' with st := s' }) (md := full m true) hr rfl
        (fun _ => rfl) rfl
      simp only [rest_full] at this
      unfold rest at this
      rw [if_pos h1] at this
      simpa only [hr] using this
    rw [whole_iff hd] at h
    obtain ⟨h0, rfl⟩ := h
    obtain ⟨y, hy, hp2⟩ := applyRest_zero (Option.some.inj h0).symm
    unfold applied
    rw [(settle_fields _).1, hp2, hp', hp, List.map_cons, List.map_cons, hx, hy]

/-! ### C228: cut while reading -/

theorem leave_reading {p : Proc} (hc : Calm p) {v : Env} (hv : ready v) {m : Meta} {k n : Nat}
    (hk : reading m n (steps tm v (.ok m) k (p, .gate)).2) (flush : Bool) :
    leave tm v (.ok m) k false flush p = { p with ref := some (((items m).take n).foldl fill .zero) } := by
  have ht := track (tm := tm) (m := m) hc hv k
  unfold leave
  generalize steps tm v (.ok m) k (p, .gate) = c at hk ht
  obtain ⟨q, pc⟩ := c
  cases pc <;> simp only [reading] at hk
  simp only [Track] at ht
  obtain ⟨done, hd, rfl⟩ := ht
  obtain ⟨rfl, hn⟩ := hk
  have : done = (items m).take n := by
    exact (List.append_cancel_right ((List.take_append_drop n (items m)).trans hd)).symm
  subst this
  simp only [Bool.or_false, settle_clean hc.idle]
  cases flush <;> rfl

theorem gate_ref {p : Proc} (hc : Calm p) {v : Env} (hv : ready v) (buf) (md : Md) :
    step tm v buf ({ p with ref := some md }, .gate) = ({ p with ref := some md }, .dispatch) :=
  gate_calm (p := { p with ref := some md }) hc.idle hc.err hc.free buf hv

theorem undefined_head {v buf c} (h : ∃ q, Reaches tm v buf (step tm v buf c) (q, .undefined)) :
    ∃ q, Reaches tm v buf c (q, .undefined) := by
  obtain ⟨q, h⟩ := h
  exact ⟨q, .head h⟩

/-- **C228** fails: if a request to apply is cut after the kind of patch was read and before the first function was, the next
request, whatever it is, uses a pointer that was not set. -/
theorem C228_undefined {p : Proc} (hc : Calm p) {v : Env} (hv : ready v) {m : Meta} (ht : m.type = 1) {k n : Nat}
    (hk : reading m n (steps tm v (.ok m) k (p, .gate)).2) (h1 : 1 ≤ n) (h4 : n ≤ 4) (flush : Bool) {v' : Env}
    (hv' : ready v') (hb : n = 4 → v'.w.libBase (getBasename m.lib) ≠ 0xff) (buf' : Except Err Meta) :
    (∃ j, (steps tm v' buf' j (leave tm v (.ok m) k false flush p, .gate)).2 = .undefined) ∧
      ∀ a r, ¬ Happens tm (leave tm v (.ok m) k false flush p) (.whole v' buf') a r := by
  have key : ∃ q, Reaches tm v' buf' (leave tm v (.ok m) k false flush p, .gate) (q, .undefined) := by
    rw [leave_reading hc hv hk flush]
    have hn : n = 1 ∨ n = 2 ∨ n = 3 ∨ n = 4 := by omega
    rcases hn with rfl | rfl | rfl | rfl
    · refine undefined_head ?_
      rw [gate_ref hc hv']
      refine undefined_head ?_
      simp only [items, List.cons_append, List.take_succ_cons, List.take_zero, List.foldl, fill, step, Md.zero, ht]
      exact ⟨_, .refl⟩
    · refine undefined_head ?_
      rw [gate_ref hc hv']
      refine undefined_head ?_
      simp only [items, List.cons_append, List.take_succ_cons, List.take_zero, List.foldl, fill, step, Md.zero, ht]
      exact ⟨_, .refl⟩
    · refine undefined_head ?_
      rw [gate_ref hc hv']
      refine undefined_head ?_
      simp only [items, List.cons_append, List.take_succ_cons, List.take_zero, List.foldl, fill, step, Md.zero, ht]
      exact ⟨_, .refl⟩
    · refine undefined_head ?_
      rw [gate_ref hc hv']
      refine undefined_head ?_
      simp only [items, List.cons_append, List.take_succ_cons, List.take_zero, List.foldl, fill, step, Md.zero, ht]
      refine undefined_head ?_
      simp only [if_true, Bool.false_eq_true, if_false, step]
      refine undefined_head ?_
      simp only [step]
      refine undefined_head ?_
      simp only [step]
      refine undefined_head ?_
      simp only [step, if_neg (hb rfl), Bool.not_false, if_true]
      exact ⟨_, .refl⟩
  obtain ⟨q, hq⟩ := key
  refine ⟨?_, fun a r => whole_none hq a r⟩
  obtain ⟨j, hj⟩ := hq
  exact ⟨j, by rw [hj]⟩

theorem reaches_calm {p : Proc} (hc : Calm p) {v : Env} {buf md e}
    (h : Reaches tm v buf ({ p with ref := some md }, .gate) ({ p with ref := none }, .ret e)) (a r) :
    Happens tm { p with ref := some md } (.whole v buf) a r ↔ a = some e ∧ r = p := by
  rw [whole_iff h]
  obtain ⟨st, ref, stuck⟩ := p
  have h1 : ref = none := hc.ref
  subst h1
  simp only [settle_clean hc.idle]

/-- **C228** fails: if a request is cut before anything was read, the next one, however correct, is refused as having no
metadata. -/
theorem C228_read_nothing {p : Proc} (hc : Calm p) {v : Env} (hv : ready v) {m : Meta} {k : Nat}
    (hk : reading m 0 (steps tm v (.ok m) k (p, .gate)).2) (flush : Bool) {v' : Env} (hv' : ready v')
    (buf' : Except Err Meta) (a : Option Nat) (r : Proc) :
    Happens tm (leave tm v (.ok m) k false flush p) (.whole v' buf') a r ↔ a = some ENOMETA ∧ r = p := by
  rw [leave_reading hc hv hk flush]
  refine reaches_calm hc ?_ a r
  refine .head ?_
  rw [gate_ref hc hv']
  refine .head ?_
  simp only [items, List.cons_append, List.take_zero, List.foldl, step, Md.zero]
  exact unload_reaches v' buf' _ _

/-- **C228** fails: if a request to apply is cut after the first function was read and before everything was, the next one,
however correct, is refused because of a symbol of the earlier livepatch. -/
theorem C228_read_part {p : Proc} (hc : Calm p) {v : Env} (hv : ready v) {m : Meta} (ht : m.type = 1) {u : UnitM}
    {us : List UnitM} (hu : m.units = u :: us) {k n : Nat} (hk : reading m n (steps tm v (.ok m) k (p, .gate)).2) (hn : 5 ≤ n)
    (flush : Bool) {v' : Env} (hv' : ready v') (hg : v'.global u.newName = 0) (buf' : Except Err Meta) (a : Option Nat)
    (r : Proc) :
    Happens tm (leave tm v (.ok m) k false flush p) (.whole v' buf') a r ↔ a = some ESTATE ∧ r = p := by
  rw [leave_reading hc hv hk flush]
  refine reaches_calm hc ?_ a r
  refine .head ?_
  rw [gate_ref hc hv']
  have hmd : ∃ us' ds rs, ((items m).take n).foldl fill .zero =
      ⟨{ m with units := u :: us', deps := ds, refs := rs }, true, false, false⟩ := by
    obtain ⟨n, rfl⟩ : ∃ j, n = j + 5 := ⟨n - 5, by omega⟩
    have h2 : ¬ m.type = 2 := by rw [ht]; decide
    simp only [items, if_neg h2, hu, List.map_cons, List.cons_append, List.nil_append, List.take_succ_cons, List.foldl, fill,
      Md.zero]
    have hgen : ∀ (l : List Item) (md : Md), md.mt.type = m.type → md.mt.id = m.id → md.mt.soName = m.soName →
        md.mt.lib = m.lib → md.named = true → md.opened = false → md.freed = false → (∃ t, md.mt.units = u :: t) →
        (∀ i ∈ l, (∃ x, i = .unit x) ∨ (∃ x, i = .dep x) ∨ ∃ x, i = .ref x) →
        ∃ us' ds rs, l.foldl fill md = ⟨{ m with units := u :: us', deps := ds, refs := rs }, true, false, false⟩ := by
      intro l
      induction l with
      | nil =>
        intro md h1 h2 h3 h4 h5 h6 h7 ⟨t, h8⟩ _
        obtain ⟨⟨ty, id, so, lib, un, de, re⟩, na, op, fr⟩ := md
        simp only at h1 h2 h3 h4 h5 h6 h7 h8
        subst h1 h2 h3 h4 h5 h6 h7 h8
        exact ⟨t, de, re, rfl⟩
      | cons i l ih =>
        intro md h1 h2 h3 h4 h5 h6 h7 ⟨t, h8⟩ h9
        have hrec := fun md' a b c d e f g h => ih md' a b c d e f g h (fun i hi => h9 i (List.mem_cons_of_mem _ hi))
        rcases h9 i List.mem_cons_self with ⟨x, rfl⟩ | ⟨x, rfl⟩ | ⟨x, rfl⟩
        · exact hrec _ h1 h2 h3 h4 h5 h6 h7 ⟨t ++ [x], by simp [fill, h8]⟩
        · exact hrec _ h1 h2 h3 h4 h5 h6 h7 ⟨t, by simp [fill, h8]⟩
        · exact hrec _ h1 h2 h3 h4 h5 h6 h7 ⟨t, by simp [fill, h8]⟩
    refine hgen _ _ rfl rfl rfl rfl rfl rfl rfl ⟨[], rfl⟩ ?_
    intro i hi
    have hi := List.mem_of_mem_take hi
    simp only [List.mem_append, List.mem_map] at hi
    rcases hi with (⟨x, _, rfl⟩ | ⟨x, _, rfl⟩) | ⟨x, _, rfl⟩
    · exact Or.inl ⟨x, rfl⟩
    · exact Or.inr (Or.inl ⟨x, rfl⟩)
    · exact Or.inr (Or.inr ⟨x, rfl⟩)
  obtain ⟨us', ds, rs, hmd⟩ := hmd
  rw [hmd]
  refine .head ?_
  simp only [step, ht, Bool.false_eq_true, if_false, if_true]
  refine .head ?_
  simp only [step, Env.view, Bool.false_eq_true, if_false, hg, if_true, ite_self]
  exact unload_reaches v' buf' _ _

/-! ### C229 -/

theorem applyUnits_setPatches (w lib id) (us : List UnitM) (s : State) (X) :
    applyUnits tm w lib id us { s with patches := X } =
      ({ (applyUnits tm w lib id us s).1 with patches := X }, (applyUnits tm w lib id us s).2) := by
  induction us generalizing s with
  | nil => rfl
  | cons u us ih =>
    simp only [applyUnits]
    by_cases h1 : w.oldSym (getBasename lib) u.oldName u.oldAddr = 0
    · simp only [if_pos h1]
    simp only [if_neg h1]
    by_cases h2 : w.newSym u.newName = 0
    · simp only [if_pos h2]
    simp only [if_neg h2]
    have ha : ∀ d, addDetour { s with patches := X } (w.oldSym (getBasename lib) u.oldName u.oldAddr) d =
        { addDetour s (w.oldSym (getBasename lib) u.oldName u.oldAddr) d with patches := X } := by
      intro d
      unfold addDetour
      simp only
      by_cases hr : (s.roots.any fun r => r.addr == w.oldSym (getBasename lib) u.oldName u.oldAddr) = true
      · simp only [if_pos hr]
      · simp only [if_neg hr]
    rw [ha]
    have hb : ∀ (t : State) a b, patchAddr tm { t with patches := X } a b true =
        ({ (patchAddr tm t a b true).1 with patches := X }, (patchAddr tm t a b true).2) := by
      intro t a b
      unfold patchAddr
      simp only [memwrites_setPatches]
    rw [hb]
    generalize patchAddr tm _ _ _ true = g
    obtain ⟨t, e⟩ := g
    simp only
    by_cases h3 : e > 0
    · simp only [if_pos h3]
    · simp only [if_neg h3]
      exact ih t

theorem applyUnits_congr {w w' : World} (ho : w'.oldSym = w.oldSym) (hn : w'.newSym = w.newSym) (lib id) (us : List UnitM)
    (s : State) : applyUnits tm w' lib id us s = applyUnits tm w lib id us s := by
  induction us generalizing s with
  | nil => rfl
  | cons u us ih => simp only [applyUnits, ih, ho, hn]

theorem resolve_of_applyUnits {w lib id} {us : List UnitM} {s t : State} (h : applyUnits tm w lib id us s = (t, 0)) :
    ∃ l, resolveUnits w lib us = some l := by
  induction us generalizing s with
  | nil => exact ⟨[], rfl⟩
  | cons u us ih =>
    simp only [applyUnits] at h
    simp only [resolveUnits]
    by_cases h1 : w.oldSym (getBasename lib) u.oldName u.oldAddr = 0
    · rw [if_pos h1] at h; simp [ENOOLDFUNC] at h
    rw [if_neg h1] at h ⊢
    by_cases h2 : w.newSym u.newName = 0
    · rw [if_pos h2] at h; simp [ENONEWFUNC] at h
    rw [if_neg h2] at h ⊢
    generalize patchAddr tm _ _ _ true = g at h
    obtain ⟨t', e⟩ := g
    simp only at h
    by_cases h3 : e > 0
    · rw [if_pos h3] at h
      simp only [Prod.mk.injEq] at h
      exact absurd h.2 (Nat.pos_iff_ne_zero.mp h3)
    · rw [if_neg h3] at h
      obtain ⟨l, hl⟩ := ih h
      exact ⟨_, by rw [hl]; rfl⟩

theorem resolveUnits_congr {w w' : World} (ho : w'.oldSym = w.oldSym) (hn : w'.newSym = w.newSym) (lib) (us : List UnitM) :
    resolveUnits w' lib us = resolveUnits w lib us := by
  induction us with
  | nil => rfl
  | cons u us ih => simp only [resolveUnits, ih, ho, hn]

theorem settle_setPatches (s : State) (X) : settle { s with patches := X } = { settle s with patches := X } := rfl

/-- The request that was cut after `done`, as far as the code is concerned. -/
theorem shorter {v : Env} (hv : ready v) {p : Proc} (hc : Calm p) {m : Meta} (ht : m.type = 1) (hs : sanity v.w m p.st = 0)
    {done : List UnitM} {x : Applied} {t : State} (h : applyUnits tm v.w m.lib m.id done (begun p.st x) = (t, 0)) :
    ∃ X, applyPatch tm { v.w with libBase := fun _ => 0, soBase := some 1, buildIdOk := true, dlopenOk := true }
      (.ok { m with units := done, refs := [] }) p.st = ({ t with patches := X }, 0) := by
  generalize hw : ({ v.w with libBase := fun _ => 0, soBase := some 1, buildIdOk := true, dlopenOk := true } : World) = w'
  have hb : w'.busy = false := by subst hw; exact hv
  have ho : w'.oldSym = v.w.oldSym := by subst hw; rfl
  have hn : w'.newSym = v.w.newSym := by subst hw; rfl
  obtain ⟨l, hl⟩ := resolve_of_applyUnits h
  obtain ⟨h1, h2⟩ := sanity_zero hs
  have hg : gate w' p.st = (p.st, none) := by
    rw [gate_clean hc.idle, if_neg (by rw [hc.err]; decide), if_neg (by simp [hb])]
  unfold applyPatch
  rw [hg]
  simp only
  unfold loadPatch
  have hsan : sanity w' { m with units := done, refs := [] } p.st = 0 := by
    unfold sanity
    rw [if_neg (by subst hw; simp), if_neg (by simp [h1]), if_neg (by simp [h2])]
  have hn2 : ¬ m.type = 2 := by rw [ht]; decide
  simp only [if_neg hn2, hsan, ne_eq, not_true_eq_false, if_false, not_false_eq_true, if_pos ht]
  rw [if_neg (by subst hw; simp)]
  have hu : stateUpdate w' { m with units := done, refs := [] } p.st = some { p.st with patches :=
      { id := m.id, lib := (getBasename m.lib).take pathLen, container := m.soName.take pathLen, deps := m.deps.reverse,
        units := l } :: p.st.patches } := by
    unfold stateUpdate
    simp only [resolveUnits_congr ho hn, hl, Option.map_some]
  rw [hu]
  simp only
  have ha := applyUnits_setPatches (tm := tm) v.w m.lib m.id done (begun p.st x)
    ({ id := m.id, lib := (getBasename m.lib).take pathLen, container := m.soName.take pathLen, deps := m.deps.reverse,
        units := l } :: p.st.patches)
  rw [h] at ha
  have hall : ∀ X, applyUnits tm v.w m.lib m.id done { p.st with patches := X, univ := p.st.univ + 1 } =
      ({ t with patches := X }, 0) → applyAllUnits tm w' { m with units := done, refs := [] } { p.st with patches := X } =
      ({ t with patches := X }, 0) := by
    intro X hX
    unfold applyAllUnits
    simp only [applyUnits_congr ho hn, hX]
    subst hw
    simp [applyRefs]
  rw [hall _ ha]
  exact ⟨_, if_neg (by simp)⟩

/-- **C229** fails: if a request is cut when the first functions of the patch have been replaced and the rest have not, and
the tool executes what was queued, calls are redirected as by a patch that consists of these first functions only. -/
theorem C229_half_patch (htl : tm.length = 44) {m₀ : Mem} {F slot : Nat → Prop} (hI : Image m₀ F slot) {fuel : Nat} {reqs : List Request}
    (hfit : ∀ r ∈ reqs, Fits F slot r) {s : State} {as : List Nat}
    (h : serveAll tm fuel (State.init m₀) reqs = some (s, as)) (he : s.err = ENONE) {v : Env} (hv : ready v) {m : Meta}
    (hm : Fits F slot (.apply v.w (.ok m))) {k : Nat} {todo : List UnitM}
    (hk : (steps tm v (.ok m) k (⟨s, none, false⟩, .gate)).2 = .detour todo)
    (herr : (leave tm v (.ok m) k false true ⟨s, none, false⟩).st.err = ENONE) (f : Nat) (hf : F f) :
    callDest tm (entryOff m₀ f) (leave tm v (.ok m) k false true ⟨s, none, false⟩).st.mem f =
      some ((replacement ({ patchOf v.w m with
          repl := (patchOf v.w m).repl.take (m.units.length - todo.length) } :: trackAll [] reqs as) f).getD
        (body m₀ f)) := by
  have hinv := serveAll_inv htl hI reqs hfit _ _ _ _ (init_inv hI) h
  have hc : Calm ⟨s, none, false⟩ := ⟨hinv.clean, he, rfl, rfl⟩
  have ht := Cut.track (tm := tm) (m := m) hc hv k
  unfold leave at herr ⊢
  generalize steps tm v (.ok m) k (⟨s, none, false⟩, .gate) = c at hk ht herr
  obtain ⟨q, pc⟩ := c
  simp only at hk
  subst hk
  simp only [Track] at ht
  obtain ⟨⟨h1, hs⟩, -, -, x, hx, done, hd, ha⟩ := ht
  obtain ⟨X, hsh⟩ := shorter hv hc h1 hs ha
  simp only [if_true] at herr ⊢
  generalize hw : ({ v.w with libBase := fun _ => 0, soBase := some 1, buildIdOk := true, dlopenOk := true } : World) = w' at hsh
  have hserve : serve tm fuel s (.apply w' (.ok { m with units := done, refs := [] })) =
      some (settle { q.st with patches := X }, 0) := by
    simp only [serve]
    simp only at hsh
    rw [hsh]
  have hall := Crew.serveAll_snoc _ h hserve
  have hfit' : ∀ r ∈ reqs ++ [.apply w' (.ok { m with units := done, refs := [] })], Fits F slot r := by
    intro r hr
    rcases List.mem_append.mp hr with hr | hr
    · exact hfit r hr
    · rw [List.mem_singleton] at hr
      subst hr hw
      intro _
      refine ⟨?_, by simp⟩
      intro u hu
      exact (hm h1).1 u (by rw [hd]; exact List.mem_append_left _ hu)
  have hcall := C161_calls_reach_newest htl hI fuel _ hfit' _ _ hall (Or.inl (by rw [settle_setPatches]; exact herr)) f hf
  rw [settle_setPatches] at hcall
  simp only at hcall
  rw [hcall]
  have htr : ∀ (ps : List Runtime.Spec.Patch) (rs : List Request) (as : List Nat) r a, rs.length = as.length →
      trackAll ps (rs ++ [r]) (as ++ [a]) = Runtime.Spec.track (trackAll ps rs as) r a := by
    intro ps rs
    induction rs generalizing ps with
    | nil =>
      intro as r a hl
      cases as with
      | nil => rfl
      | cons => simp at hl
    | cons r0 rs ih =>
      intro as r a hl
      cases as with
      | nil => simp at hl
      | cons a0 as => exact ih _ as r a (by simpa using hl)
  have hlen : reqs.length = as.length := by
    have : ∀ (rs : List Request) (s t : State) (as : List Nat), serveAll tm fuel s rs = some (t, as) → rs.length = as.length := by
      intro rs
      induction rs with
      | nil =>
        intro s t as h
        simp only [serveAll, Option.some.injEq, Prod.mk.injEq] at h
        rw [← h.2]; rfl
      | cons r rs ih =>
        intro s t as h
        simp only [serveAll] at h
        cases hr : serve tm fuel s r with
        | none => rw [hr] at h; simp at h
        | some x =>
          obtain ⟨s', a⟩ := x
          rw [hr] at h
          simp only at h
          cases hr' : serveAll tm fuel s' rs with
          | none => rw [hr'] at h; simp at h
          | some y =>
            obtain ⟨t', as'⟩ := y
            rw [hr'] at h
            simp only [Option.map_some, Option.some.injEq, Prod.mk.injEq] at h
            rw [← h.2, List.length_cons, List.length_cons, ih _ _ _ hr']
    exact this _ _ _ _ h
  rw [htr _ _ _ _ _ hlen]
  have htrack : Runtime.Spec.track (trackAll [] reqs as) (.apply w' (.ok { m with units := done, refs := [] })) 0 =
      { patchOf v.w m with repl := (patchOf v.w m).repl.take (m.units.length - todo.length) } :: trackAll [] reqs as := by
    simp only [Runtime.Spec.track, if_pos h1, List.cons.injEq, and_true]
    subst hw
    unfold patchOf
    simp only [hd, List.map_append, List.length_append, Nat.add_sub_cancel]
    rw [List.take_left' (by simp)]
  rw [htrack]

/-- **C229** (part) A request that is cut before the first function is replaced leaves all code as it was. -/
theorem C229_before_partial {p : Proc} (hc : Calm p) {v : Env} (hv : ready v) {m : Meta} {k : Nat}
    (hk : ∃ n, reading m n (steps tm v (.ok m) k (p, .gate)).2 ∨ loaded (steps tm v (.ok m) k (p, .gate)).2 ∨
      (steps tm v (.ok m) k (p, .gate)).2 = .count) (inside flush : Bool) :
    (leave tm v (.ok m) k inside flush p).st.mem = p.st.mem := by
  have ht := Cut.track (tm := tm) (m := m) hc hv k
  unfold leave
  generalize steps tm v (.ok m) k (p, .gate) = c at hk ht
  obtain ⟨q, pc⟩ := c
  obtain ⟨n, hk⟩ := hk
  have key : q.st.mem = p.st.mem ∧ Idle q.st := by
    cases pc with
    | read todo => obtain ⟨done, _, rfl⟩ := ht; exact ⟨rfl, hc.idle⟩
    | clean => obtain ⟨_, rfl⟩ := ht; exact ⟨rfl, hc.idle⟩
    | dispatch => obtain ⟨_, rfl⟩ := ht; exact ⟨rfl, hc.idle⟩
    | count => obtain ⟨_, x, _, rfl⟩ := ht; exact ⟨rfl, hc.idle.num, hc.idle.size, hc.idle.ver⟩
    | _ => simp [reading, loaded] at hk
  simp only [settle_clean key.2, ite_self]
  exact key.1

/-! ### Concrete cases

A fresh process; a patch for two functions with one reference, and another patch. -/

def demoEnv : Env := ⟨demoWorld, fun _ => 0⟩
def demoProc : Proc := ⟨State.init demoMem, none, false⟩
def demoFirst : Meta := demoPatch 1 libA [0x1000, 0x2000] [] demoRefs
def demoSecond : Meta := demoPatch 2 libA [0x1000] [] []

theorem demo_calm : Calm demoProc := ⟨⟨rfl, rfl, Nat.le_refl _⟩, rfl, rfl, rfl⟩
theorem demo_ready : ready demoEnv := rfl

theorem demo_reading (n : Nat) (h : n ≤ 7) :
    reading demoFirst n (steps demoT demoEnv (.ok demoFirst) (n + 2) (demoProc, .gate)).2 := by
  have h' : n = 0 ∨ n = 1 ∨ n = 2 ∨ n = 3 ∨ n = 4 ∨ n = 5 ∨ n = 6 ∨ n = 7 := by omega
  rcases h' with rfl | rfl | rfl | rfl | rfl | rfl | rfl | rfl <;> exact ⟨rfl, by decide⟩

theorem demo_loaded : loaded (steps demoT demoEnv (.ok demoFirst) 12 (demoProc, .gate)).2 := trivial

theorem demo_first_done :
    (steps demoT demoEnv (.ok demoFirst) 20 (demoProc, .gate)).2 = .detour [{ oldName := [], newName := [1], oldAddr := 0x2000 }] :=
  rfl

theorem demo_err : (leave demoT demoEnv (.ok demoFirst) 20 false true demoProc).st.err = ENONE := by decide +kernel

theorem demo_whole {p : Proc} (hr : p.ref = none) (hs : p.stuck = false) (m : Meta)
    (h : (applyPatch demoT demoWorld (.ok m) p.st).2 = 0) :
    Happens demoT p (.whole demoEnv (.ok m)) (some 0) ⟨settle (applyPatch demoT demoWorld (.ok m) p.st).1, none, false⟩ :=
  (C228_uncut_partial hr hs demoEnv (.ok m) _ _).mpr ⟨by rw [← h]; rfl, rfl⟩

-- C228_uncut_partial
example : ∃ r, Happens demoT demoProc (.whole demoEnv (.ok demoFirst)) (some 0) r ∧ applied r = [[1]] ∧ r.ref.isNone = true :=
  ⟨_, demo_whole rfl rfl _ (by decide +kernel), by decide +kernel, rfl⟩

-- C228_before_partial
example : leave demoT demoEnv (.ok demoFirst) 1 false true demoProc = demoProc :=
  C228_before_partial demo_calm demo_ready (Or.inr rfl) true

-- C228_after_partial
example : Happens demoT demoProc (.whole demoEnv (.ok demoFirst)) (some 0) (leave demoT demoEnv (.ok demoFirst) 28 false true demoProc) :=
  C228_after_partial (k := 28) (e := 0) rfl

-- C228_stuck: cut inside `dlopen`; then the second patch is tried twice, live patching being disabled and enabled meanwhile
example : ∃ p as q, Happens demoT demoProc (.cut demoEnv (.ok demoFirst) 11 true true) none p ∧
    Run demoT p [.whole demoEnv (.ok demoSecond), .toggle, .toggle, .whole demoEnv (.ok demoSecond)] as q ∧
    as = [some EAGAIN, some EUSRBLOCKED, some ENONE, some EAGAIN] ∧ applied q = [] := by
  have h : ∃ as q, Run demoT (leave demoT demoEnv (.ok demoFirst) 11 true true demoProc)
      [.whole demoEnv (.ok demoSecond), .toggle, .toggle, .whole demoEnv (.ok demoSecond)] as q ∧
      as = [some EAGAIN, some EUSRBLOCKED, some ENONE, some EAGAIN] :=
    ⟨_, _, .cons (.whole _ _ _ 1 _ EAGAIN rfl) (.cons (.toggle _) (.cons (.toggle _)
      (.cons (.whole _ _ _ 1 _ EAGAIN rfl) (.nil _)))), rfl⟩
  obtain ⟨as, q, hr, ha⟩ := h
  have hb : Happens demoT demoProc (.cut demoEnv (.ok demoFirst) 11 true true) none
      (leave demoT demoEnv (.ok demoFirst) 11 true true demoProc) :=
    .cut _ _ _ _ _ _ (fun _ => rfl) (by intro h; cases h)
  refine ⟨_, as, q, hb, hr, ha, ?_⟩
  unfold applied
  rw [(C228_stuck hb hr).2.1]
  rfl

-- C228_earlier_instead and C228_wrong_patch: the second patch is asked for, reported as applied, and is not; the first is
example : ∃ r, Happens demoT (leave demoT demoEnv (.ok demoFirst) 12 false true demoProc) (.whole demoEnv (.ok demoSecond)) (some 0) r ∧
    applied r = [[1]] ∧ demoSecond.id ∉ applied r := by
  have h : ∃ r, Happens demoT (leave demoT demoEnv (.ok demoFirst) 12 false true demoProc) (.whole demoEnv (.ok demoSecond)) (some 0) r :=
    ⟨_, (C228_earlier_instead demo_calm demo_ready demo_loaded true demo_ready _ _ _).mpr
      (demo_whole rfl rfl _ (by decide +kernel))⟩
  obtain ⟨r, hr⟩ := h
  exact ⟨r, hr, C228_wrong_patch demo_calm demo_ready rfl demo_loaded true demo_ready (by decide) (by decide +kernel) hr⟩

-- C228_twice: the first patch is cut after its first function; the second is asked for; the first is in the list twice
example : ∃ r, Happens demoT (leave demoT demoEnv (.ok demoFirst) 20 false true demoProc) (.whole demoEnv (.ok demoSecond)) (some 0) r ∧
    applied r = [[1], [1]] := by
  have h : ∃ r, Happens demoT (leave demoT demoEnv (.ok demoFirst) 20 false true demoProc) (.whole demoEnv (.ok demoSecond)) (some 0) r := by
    have hc : (steps demoT demoEnv (.ok demoSecond) 16 (leave demoT demoEnv (.ok demoFirst) 20 false true demoProc, .gate)).2 = .ret 0 := rfl
    exact ⟨_, C228_after_partial hc⟩
  obtain ⟨r, hr⟩ := h
  exact ⟨r, hr, C228_twice demo_calm demo_ready (k := 20) (by rw [demo_first_done]; trivial) false true hr⟩

-- C228_undefined
example (a : Option Nat) (r : Proc) :
    ¬ Happens demoT (leave demoT demoEnv (.ok demoFirst) 6 false true demoProc) (.whole demoEnv (.ok demoSecond)) a r :=
  (C228_undefined demo_calm demo_ready rfl (demo_reading 4 (by decide)) (by decide) (by decide) true demo_ready
    (fun _ => by decide) _).2 a r

-- C228_read_nothing
example : Happens demoT (leave demoT demoEnv (.ok demoFirst) 2 false true demoProc) (.whole demoEnv (.ok demoSecond)) (some ENOMETA)
    demoProc :=
  (C228_read_nothing demo_calm demo_ready (demo_reading 0 (by decide)) true demo_ready _ _ _).mpr ⟨rfl, rfl⟩

-- C228_read_part
example : Happens demoT (leave demoT demoEnv (.ok demoFirst) 8 false true demoProc) (.whole demoEnv (.ok demoSecond)) (some ESTATE)
    demoProc :=
  (C228_read_part demo_calm demo_ready rfl rfl (demo_reading 6 (by decide)) (by decide) true demo_ready rfl _ _ _).mpr
    ⟨rfl, rfl⟩

-- C229_half_patch: the first function is redirected, the second is not
example : callDest demoT 0 (leave demoT demoEnv (.ok demoFirst) 20 false true demoProc).st.mem 0x1000 = some 0x700001 ∧
    callDest demoT 8 (leave demoT demoEnv (.ok demoFirst) 20 false true demoProc).st.mem 0x2000 = some 0x200c := by
  have hfit : Fits demoF demoSlot (.apply demoEnv.w (.ok demoFirst)) := by
    refine demo_fits _ _ _ _ _ (by simp [demoF]) ?_
    intro r hr
    simp only [demoRefs, List.mem_singleton] at hr
    subst hr
    simp [Runtime.Spec.refAddr, Runtime.Spec.refSize, demoSlot]
    omega
  have h := C229_half_patch demo_t demo_image (fuel := 1) (reqs := []) (by simp) (s := State.init demoMem) (as := []) rfl rfl
    demo_ready hfit demo_first_done demo_err
  refine ⟨(h _ (Or.inl rfl)).trans ?_, (h _ (Or.inr rfl)).trans ?_⟩ <;> decide +kernel

-- C229_before_partial
example : (leave demoT demoEnv (.ok demoFirst) 12 true true demoProc).st.mem = demoMem :=
  C229_before_partial demo_calm demo_ready ⟨0, Or.inr (Or.inl demo_loaded)⟩ true true

end Verif.Power.Cut
