import Verif.Messages.Spec
import Verif.MsgQueue.Props

namespace Verif.Messages

open Verif.MsgQueue

theorem upd_self {α : Type} (f : Nat → α) (k : Nat) (v : α) : upd f k v k = v := by simp [upd]

theorem upd_ne {α : Type} (f : Nat → α) {i k : Nat} (v : α) (h : i ≠ k) : upd f k v i = f i := by simp [upd, h]

/-! ### printing -/

theorem printLoop_ok {N : Nat} (buf : Nat → UInt8) (d : Nat) : ∀ b : Nat, b < N → printLoop N buf b d = some (printFrom N buf b d) := by
  induction d with
  | zero => intro b _; rfl
  | succ d ih =>
    intro b hb
    have e : ((b : Int) + 1).tmod N = ((b + 1) % N : Nat) := by
      rw [Int.tmod_eq_emod_of_nonneg (by omega)]; simp
    rw [printLoop, if_neg (by omega), e, ih _ (Nat.mod_lt _ (by omega))]
    simp [printFrom]

theorem inv_bottom {N q kept} (h : Inv N q kept) (hN : 0 < N) : q.bottom < N := by
  cases h with
  | empty hb ht hd hk => omega
  | linear hk ha ht hN hd h0 hg => omega
  | wrapped m1 m2 p hk h1 h2 hs ht hd hlt => have := hs.fit; have := hs.pad; omega

/-! ### the cells read are those of the queue -/

/-- What the tool prints when it has all cells of one queue. -/
theorem view_cells {N : Nat} {q : MsgQ} (hb : q.bottom < N) :
    msgqPrint N (view N ((List.range' 0 (N + 3)).map (cell N q))) = some (printed N q) := by
  have hget : ∀ i, i < N + 3 → (((List.range' 0 (N + 3)).map (cell N q)).getD i 0) = cell N q i := by
    intro i hi
    rw [List.getD_eq_getElem?_getD, List.getElem?_map, List.getElem?_range' hi]
    simp
  have h1 : (view N ((List.range' 0 (N + 3)).map (cell N q))).bottom = q.bottom := by
    simp only [view]; rw [hget _ (by omega)]; simp [cell]; omega
  have h2 : (view N ((List.range' 0 (N + 3)).map (cell N q))).distance = q.distance := by
    simp only [view]; rw [hget _ (by omega)]; simp [cell]; omega
  have h3 : ∀ i, i < N → (view N ((List.range' 0 (N + 3)).map (cell N q))).buf i = q.buf i := by
    intro i hi
    simp only [view]; rw [hget _ (by omega)]; simp [cell, hi]
  have h4 : ∀ d b, b < N → printFrom N (view N ((List.range' 0 (N + 3)).map (cell N q))).buf b d = printFrom N q.buf b d := by
    intro d
    induction d with
    | zero => intro b _; rfl
    | succ d ih => intro b hb; simp only [printFrom]; rw [h3 b hb, ih _ (Nat.mod_lt _ (by omega))]
  unfold msgqPrint
  rw [h1, h2, printLoop_ok _ _ _ hb, h4 _ _ hb]
  rfl

/-! ### the invariant -/

theorem pushAll_snoc {N fuel : Nat} (ms : List Str) : ∀ {q q' q'' m}, pushAll N fuel q ms = .ok q' → push N fuel q' m = .ok q'' →
    pushAll N fuel q (ms ++ [m]) = .ok q'' := by
  induction ms with
  | nil =>
    intro q q' q'' m h h'
    simp only [pushAll, Outcome.ok.injEq] at h
    subst h
    simp [pushAll, h']
  | cons a ms ih =>
    intro q q' q'' m h h'
    simp only [List.cons_append, pushAll] at h ⊢
    cases ha : push N fuel q a with
    | ok q1 => simp only [ha] at h ⊢; exact ih h h'
    | outOfBounds => simp [ha] at h
    | running => simp [ha] at h

/-- The queue is that of the log, or a message is being written; a reader has what is in the queue. `L`: what had been logged when the run of tool `r` began. -/
structure J (N fuel : Nat) (r : Nat) (L : List Str) (c : Conf) : Prop where
  since : L <+: c.log
  idle : (∀ i q m, c.phase i ≠ .busy q m) → pushAll N fuel init c.log = .ok c.q
  busy : ∀ i q m, c.phase i = .busy q m → c.tracer = some i ∧ pushAll N fuel init c.log = .ok q
  hold : ∀ i, c.phase i = .idle ∨ c.phase i = .failed → c.tracer = some i
  reading : ∀ i cells, c.phase i = .reading cells → c.tracer = some i ∧ cells = (List.range' 0 cells.length).map (cell N c.q)
  shown : ∀ st o, c.phase r = .shown st o → (st = 1 ∧ o = some []) ∨
    (st = 0 ∧ ∃ ms q, L <+: ms ∧ ms <+: c.log ∧ pushAll N fuel init ms = .ok q ∧
      o = msgqPrint N (view N ((List.range' 0 (N + 3)).map (cell N q))))

theorem upd_eq {f : Nat → Phase} {i j : Nat} {p x : Phase} (h : upd f j p i = x) : (i = j ∧ p = x) ∨ (i ≠ j ∧ f i = x) := by
  by_cases e : i = j
  · subst e; rw [upd_self] at h; exact .inl ⟨rfl, h⟩
  · rw [upd_ne _ _ e] at h; exact .inr ⟨e, h⟩

/-- Nobody is busy when the main thread is free, or attached by a tool that is not. -/
theorem J.quiet {N fuel r L c} (h : J N fuel r L c) (ht : ∀ i, c.tracer = some i → ∀ q m, c.phase i ≠ .busy q m) :
    ∀ i q m, c.phase i ≠ .busy q m := fun i q m hb => ht i (h.busy i q m hb).1 q m hb

theorem J_step {N fuel r L c d} (h : J N fuel r L c) (hs : Step N fuel c d) : J N fuel r L d := by
  cases hs with
  | enter i hp ht =>
    have hq := h.quiet (fun j e => by rw [ht] at e; cases e)
    refine ⟨h.since, fun _ => h.idle hq, fun j q m hb => ?_, fun j hj => ?_, fun j cells hj => ?_, fun st o hj => ?_⟩
    · rcases upd_eq hb with ⟨_, e⟩ | ⟨_, e⟩
      · cases e
      · exact absurd e (hq j q m)
    · rcases hj with hj | hj
      · rcases upd_eq hj with ⟨e, _⟩ | ⟨_, e⟩
        · rw [e]
        · have := h.hold j (.inl e); rw [ht] at this; cases this
      · rcases upd_eq hj with ⟨e, _⟩ | ⟨_, e⟩
        · rw [e]
        · have := h.hold j (.inr e); rw [ht] at this; cases this
    · rcases upd_eq hj with ⟨_, e⟩ | ⟨_, e⟩
      · cases e
      · have := (h.reading j cells e).1; rw [ht] at this; cases this
    · rcases upd_eq hj with ⟨_, e⟩ | ⟨_, e⟩
      · cases e
      · exact h.shown st o e
  | begin i m hp =>
    have ht := h.hold i (.inl hp)
    have hq := h.quiet (fun j e => by rw [ht] at e; cases e; intro q m; rw [hp]; nofun)
    refine ⟨h.since, fun hn => absurd (upd_self ..) (hn i c.q m), fun j q m' hb => ?_, fun j hj => ?_, fun j cells hj => ?_, fun st o hj => ?_⟩
    · rcases upd_eq hb with ⟨e, e'⟩ | ⟨_, e⟩
      · cases e'; rw [e]; exact ⟨ht, h.idle hq⟩
      · exact absurd e (hq j q m')
    · rcases hj with hj | hj
      · rcases upd_eq hj with ⟨_, e⟩ | ⟨_, e⟩
        · cases e
        · exact h.hold j (.inl e)
      · rcases upd_eq hj with ⟨_, e⟩ | ⟨_, e⟩
        · cases e
        · exact h.hold j (.inr e)
    · rcases upd_eq hj with ⟨_, e⟩ | ⟨_, e⟩
      · cases e
      · exact h.reading j cells e
    · rcases upd_eq hj with ⟨_, e⟩ | ⟨_, e⟩
      · cases e
      · exact h.shown st o e
  | scribble i q m q' hp =>
    refine ⟨h.since, fun hn => absurd hp (hn i q m), h.busy, h.hold, fun j cells hj => ?_, h.shown⟩
    have := (h.reading j cells hj).1
    rw [(h.busy i q m hp).1] at this
    cases this
    have hj' : c.phase i = .reading cells := hj
    rw [hp] at hj'; cases hj'
  | commit i q m q' hp hpush =>
    obtain ⟨ht, hall⟩ := h.busy i q m hp
    have hall' := pushAll_snoc _ hall hpush
    refine ⟨h.since.trans (List.prefix_append _ _), fun _ => hall', fun j q1 m1 hb => ?_, fun j hj => ?_, fun j cells hj => ?_, fun st o hj => ?_⟩
    · rcases upd_eq hb with ⟨_, e⟩ | ⟨hne, e⟩
      · cases e
      · have := (h.busy j q1 m1 e).1; rw [ht] at this; exact absurd (Option.some.inj this).symm hne
    · rcases hj with hj | hj
      · rcases upd_eq hj with ⟨e, _⟩ | ⟨_, e⟩
        · rw [e]; exact ht
        · exact h.hold j (.inl e)
      · rcases upd_eq hj with ⟨_, e⟩ | ⟨_, e⟩
        · cases e
        · exact h.hold j (.inr e)
    · rcases upd_eq hj with ⟨_, e⟩ | ⟨hne, e⟩
      · cases e
      · have := (h.reading j cells e).1; rw [ht] at this; exact absurd (Option.some.inj this).symm hne
    · rcases upd_eq hj with ⟨_, e⟩ | ⟨_, e⟩
      · cases e
      · rcases h.shown st o e with h1 | ⟨h1, ms, q2, h2, h3, h4, h5⟩
        · exact .inl h1
        · exact .inr ⟨h1, ms, q2, h2, h3.trans (List.prefix_append _ _), h4, h5⟩
  | leave i hp =>
    have ht := h.hold i (.inl hp)
    have hq := h.quiet (fun j e => by rw [ht] at e; cases e; intro q m; rw [hp]; nofun)
    refine ⟨h.since, fun _ => h.idle hq, fun j q m hb => ?_, fun j hj => ?_, fun j cells hj => ?_, fun st o hj => ?_⟩
    · rcases upd_eq hb with ⟨_, e⟩ | ⟨_, e⟩
      · cases e
      · exact absurd e (hq j q m)
    · rcases hj with hj | hj
      · rcases upd_eq hj with ⟨_, e⟩ | ⟨hne, e⟩
        · cases e
        · have := h.hold j (.inl e); rw [ht] at this; exact absurd (Option.some.inj this).symm hne
      · rcases upd_eq hj with ⟨_, e⟩ | ⟨hne, e⟩
        · cases e
        · have := h.hold j (.inr e); rw [ht] at this; exact absurd (Option.some.inj this).symm hne
    · rcases upd_eq hj with ⟨_, e⟩ | ⟨hne, e⟩
      · cases e
      · have := (h.reading j cells e).1; rw [ht] at this; exact absurd (Option.some.inj this).symm hne
    · rcases upd_eq hj with ⟨_, e⟩ | ⟨_, e⟩
      · cases e
      · exact h.shown st o e
  | attach i hp ht =>
    have hq := h.quiet (fun j e => by rw [ht] at e; cases e)
    refine ⟨h.since, fun _ => h.idle hq, fun j q m hb => ?_, fun j hj => ?_, fun j cells hj => ?_, fun st o hj => ?_⟩
    · rcases upd_eq hb with ⟨_, e⟩ | ⟨_, e⟩
      · cases e
      · exact absurd e (hq j q m)
    · rcases hj with hj | hj
      · rcases upd_eq hj with ⟨_, e⟩ | ⟨_, e⟩
        · cases e
        · have := h.hold j (.inl e); rw [ht] at this; cases this
      · rcases upd_eq hj with ⟨_, e⟩ | ⟨_, e⟩
        · cases e
        · have := h.hold j (.inr e); rw [ht] at this; cases this
    · rcases upd_eq hj with ⟨e, e'⟩ | ⟨_, e⟩
      · cases e'; rw [e]; exact ⟨rfl, rfl⟩
      · have := (h.reading j cells e).1; rw [ht] at this; cases this
    · rcases upd_eq hj with ⟨_, e⟩ | ⟨_, e⟩
      · cases e
      · exact h.shown st o e
  | refuse i hp =>
    refine ⟨h.since, fun hn => h.idle (fun j q m hb => ?_), fun j q m hb => ?_, fun j hj => ?_, fun j cells hj => ?_, fun st o hj => ?_⟩
    · refine hn j q m ?_
      show upd c.phase i _ j = _
      rw [upd_ne _ _ (fun e => ?_)]
      · exact hb
      · rw [e, hp] at hb; cases hb
    · rcases upd_eq hb with ⟨_, e⟩ | ⟨_, e⟩
      · cases e
      · exact h.busy j q m e
    · rcases hj with hj | hj
      · rcases upd_eq hj with ⟨_, e⟩ | ⟨_, e⟩
        · cases e
        · exact h.hold j (.inl e)
      · rcases upd_eq hj with ⟨_, e⟩ | ⟨_, e⟩
        · cases e
        · exact h.hold j (.inr e)
    · rcases upd_eq hj with ⟨_, e⟩ | ⟨_, e⟩
      · cases e
      · exact h.reading j cells e
    · rcases upd_eq hj with ⟨_, e⟩ | ⟨_, e⟩
      · cases e; exact .inl ⟨rfl, rfl⟩
      · exact h.shown st o e
  | read i n cells hp hn =>
    obtain ⟨ht, hc⟩ := h.reading i cells hp
    have hq := h.quiet (fun j e => by rw [ht] at e; cases e; intro q m; rw [hp]; nofun)
    refine ⟨h.since, fun _ => h.idle hq, fun j q m hb => ?_, fun j hj => ?_, fun j cells' hj => ?_, fun st o hj => ?_⟩
    · rcases upd_eq hb with ⟨_, e⟩ | ⟨_, e⟩
      · cases e
      · exact absurd e (hq j q m)
    · rcases hj with hj | hj
      · rcases upd_eq hj with ⟨_, e⟩ | ⟨_, e⟩
        · cases e
        · exact h.hold j (.inl e)
      · rcases upd_eq hj with ⟨_, e⟩ | ⟨_, e⟩
        · cases e
        · exact h.hold j (.inr e)
    · rcases upd_eq hj with ⟨e, e'⟩ | ⟨_, e⟩
      · cases e'
        rw [e]
        refine ⟨ht, ?_⟩
        show cells ++ _ = _
        simp only [List.length_append, List.length_map, List.length_range']
        rw [← List.range'_append_1, List.map_append, ← hc, Nat.zero_add]
      · exact h.reading j cells' e
    · rcases upd_eq hj with ⟨_, e⟩ | ⟨_, e⟩
      · cases e
      · exact h.shown st o e
  | readFails i cells hp =>
    obtain ⟨ht, hc⟩ := h.reading i cells hp
    have hq := h.quiet (fun j e => by rw [ht] at e; cases e; intro q m; rw [hp]; nofun)
    refine ⟨h.since, fun _ => h.idle hq, fun j q m hb => ?_, fun j hj => ?_, fun j cells' hj => ?_, fun st o hj => ?_⟩
    · rcases upd_eq hb with ⟨_, e⟩ | ⟨_, e⟩
      · cases e
      · exact absurd e (hq j q m)
    · rcases hj with hj | hj
      · rcases upd_eq hj with ⟨_, e⟩ | ⟨_, e⟩
        · cases e
        · exact h.hold j (.inl e)
      · rcases upd_eq hj with ⟨e, _⟩ | ⟨_, e⟩
        · rw [e]; exact ht
        · exact h.hold j (.inr e)
    · rcases upd_eq hj with ⟨_, e⟩ | ⟨_, e⟩
      · cases e
      · exact h.reading j cells' e
    · rcases upd_eq hj with ⟨_, e⟩ | ⟨_, e⟩
      · cases e
      · exact h.shown st o e
  | detach i cells hp hl =>
    obtain ⟨ht, hc⟩ := h.reading i cells hp
    have hq := h.quiet (fun j e => by rw [ht] at e; cases e; intro q m; rw [hp]; nofun)
    refine ⟨h.since, fun _ => h.idle hq, fun j q m hb => ?_, fun j hj => ?_, fun j cells' hj => ?_, fun st o hj => ?_⟩
    · rcases upd_eq hb with ⟨_, e⟩ | ⟨_, e⟩
      · cases e
      · exact absurd e (hq j q m)
    · rcases hj with hj | hj
      · rcases upd_eq hj with ⟨_, e⟩ | ⟨hne, e⟩
        · cases e
        · have := h.hold j (.inl e); rw [ht] at this; exact absurd (Option.some.inj this).symm hne
      · rcases upd_eq hj with ⟨_, e⟩ | ⟨hne, e⟩
        · cases e
        · have := h.hold j (.inr e); rw [ht] at this; exact absurd (Option.some.inj this).symm hne
    · rcases upd_eq hj with ⟨_, e⟩ | ⟨hne, e⟩
      · cases e
      · have := (h.reading j cells' e).1; rw [ht] at this; exact absurd (Option.some.inj this).symm hne
    · rcases upd_eq hj with ⟨_, e⟩ | ⟨_, e⟩
      · cases e
        rw [hl] at hc
        exact .inr ⟨rfl, c.log, c.q, h.since, List.prefix_refl _, h.idle hq, by rw [← hc]⟩
      · exact h.shown st o e
  | detachFailed i hp =>
    have ht := h.hold i (.inr hp)
    have hq := h.quiet (fun j e => by rw [ht] at e; cases e; intro q m; rw [hp]; nofun)
    refine ⟨h.since, fun _ => h.idle hq, fun j q m hb => ?_, fun j hj => ?_, fun j cells' hj => ?_, fun st o hj => ?_⟩
    · rcases upd_eq hb with ⟨_, e⟩ | ⟨_, e⟩
      · cases e
      · exact absurd e (hq j q m)
    · rcases hj with hj | hj
      · rcases upd_eq hj with ⟨_, e⟩ | ⟨hne, e⟩
        · cases e
        · have := h.hold j (.inl e); rw [ht] at this; exact absurd (Option.some.inj this).symm hne
      · rcases upd_eq hj with ⟨_, e⟩ | ⟨hne, e⟩
        · cases e
        · have := h.hold j (.inr e); rw [ht] at this; exact absurd (Option.some.inj this).symm hne
    · rcases upd_eq hj with ⟨_, e⟩ | ⟨hne, e⟩
      · cases e
      · have := (h.reading j cells' e).1; rw [ht] at this; exact absurd (Option.some.inj this).symm hne
    · rcases upd_eq hj with ⟨_, e⟩ | ⟨_, e⟩
      · cases e; exact .inl ⟨rfl, rfl⟩
      · exact h.shown st o e
  | stays i hp =>
    have hnb : ∀ q m, c.phase i ≠ .busy q m := by
      intro q m hb
      rcases hp with hp | ⟨cells, hp⟩ <;> rw [hp] at hb <;> cases hb
    refine ⟨h.since, fun hn => h.idle (fun j q m hb => ?_), fun j q m hb => ?_, fun j hj => ?_, fun j cells hj => ?_, fun st o hj => ?_⟩
    · refine hn j q m ?_
      show upd c.phase i _ j = _
      rw [upd_ne _ _ (fun e => ?_)]
      · exact hb
      · rw [e] at hb; exact hnb q m hb
    · rcases upd_eq hb with ⟨_, e⟩ | ⟨_, e⟩
      · cases e
      · exact h.busy j q m e
    · rcases hj with hj | hj
      · rcases upd_eq hj with ⟨_, e⟩ | ⟨_, e⟩
        · cases e
        · exact h.hold j (.inl e)
      · rcases upd_eq hj with ⟨_, e⟩ | ⟨_, e⟩
        · cases e
        · exact h.hold j (.inr e)
    · rcases upd_eq hj with ⟨_, e⟩ | ⟨_, e⟩
      · cases e
      · exact h.reading j cells e
    · rcases upd_eq hj with ⟨_, e⟩ | ⟨_, e⟩
      · cases e; exact .inl ⟨rfl, rfl⟩
      · exact h.shown st o e
  | exit i st' o' hp =>
    have keep : ∀ j, j ≠ i → c.tracer = some j → (if c.tracer = some i then none else c.tracer) = some j := by
      intro j hne e
      rw [if_neg]
      · exact e
      · rw [e]; intro e'; exact hne (Option.some.inj e')
    refine ⟨h.since, fun hn => h.idle (fun j q m hb => ?_), fun j q m hb => ?_, fun j hj => ?_, fun j cells hj => ?_, fun st o hj => ?_⟩
    · refine hn j q m ?_
      show upd c.phase i _ j = _
      rw [upd_ne _ _ (fun e => ?_)]
      · exact hb
      · rw [e, hp] at hb; cases hb
    · rcases upd_eq hb with ⟨_, e⟩ | ⟨hne, e⟩
      · cases e
      · have := h.busy j q m e; exact ⟨keep j hne this.1, this.2⟩
    · rcases hj with hj | hj
      · rcases upd_eq hj with ⟨_, e⟩ | ⟨hne, e⟩
        · cases e
        · exact keep j hne (h.hold j (.inl e))
      · rcases upd_eq hj with ⟨_, e⟩ | ⟨hne, e⟩
        · cases e
        · exact keep j hne (h.hold j (.inr e))
    · rcases upd_eq hj with ⟨_, e⟩ | ⟨hne, e⟩
      · cases e
      · have := h.reading j cells e; exact ⟨keep j hne this.1, this.2⟩
    · rcases upd_eq hj with ⟨_, e⟩ | ⟨_, e⟩
      · cases e
      · exact h.shown st o e

theorem J_start {N fuel r q log} (h : pushAll N fuel init log = .ok q) : J N fuel r log (start q log) :=
  ⟨List.prefix_refl _, fun _ => h, fun _ _ _ hb => by simp [start] at hb, fun _ hj => by simp [start] at hj,
    fun _ _ hj => by simp [start] at hj, fun _ _ hj => by simp [start] at hj⟩

theorem J_steps {N fuel r L c d} (h : J N fuel r L c) (hs : Steps N fuel c d) : J N fuel r L d := by
  induction hs with
  | refl => exact h
  | tail _ h2 ih => exact J_step ih h2

/-- A run that has not begun sees all that has been logged. -/
theorem J.now {N fuel r L c} (h : J N fuel r L c) (hp : c.phase r = .out) : J N fuel r c.log c :=
  ⟨List.prefix_refl _, h.idle, h.busy, h.hold, h.reading, fun st o e => by rw [hp] at e; cases e⟩

end Verif.Messages
