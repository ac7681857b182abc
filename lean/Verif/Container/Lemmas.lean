import Verif.Container.Spec
import Verif.Runtime.Props

namespace Verif.Container

open Verif.Runtime Verif.Runtime.Spec Spec
open Verif.X86.Spec (callDest body)

theorem take_some {p : Obj → Bool} {f : Obj → Obj} {l l' : List Obj} {o : Obj} (h : take p f l = some (o, l')) :
    ∃ a x b, l = a ++ x :: b ∧ p x = true ∧ (∀ y ∈ a, p y = false) ∧ o = f x ∧ l' = a ++ f x :: b := by
  induction l generalizing l' with
  | nil => simp [take] at h
  | cons y ys ih =>
    unfold take at h
    by_cases hp : p y = true
    · rw [if_pos hp] at h
      simp only [Option.some.injEq, Prod.mk.injEq] at h
      exact ⟨[], y, ys, rfl, hp, by simp, h.1.symm, h.2.symm⟩
    · rw [if_neg hp] at h
      cases ht : take p f ys with
      | none => simp [ht] at h
      | some q =>
        obtain ⟨o', l''⟩ := q
        simp only [ht, Option.map_some, Option.some.injEq, Prod.mk.injEq] at h
        obtain ⟨rfl, rfl⟩ := h
        obtain ⟨a, x, b, e1, e2, e3, e4, e5⟩ := ih ht
        exact ⟨y :: a, x, b, by rw [e1]; rfl, e2, by simpa using ⟨by simpa using hp, e3⟩, e4, by rw [e5]; rfl⟩

theorem take_none {p : Obj → Bool} {f : Obj → Obj} {l : List Obj} (h : take p f l = none) : ∀ y ∈ l, p y = false := by
  induction l with
  | nil => simp
  | cons y ys ih =>
    unfold take at h
    by_cases hp : p y = true
    · rw [if_pos hp] at h; simp at h
    · rw [if_neg hp, Option.map_eq_none_iff] at h
      simpa using ⟨by simpa using hp, ih h⟩

theorem take_none_of {p : Obj → Bool} {f : Obj → Obj} {l : List Obj} (h : ∀ y ∈ l, p y = false) : take p f l = none := by
  cases ht : take p f l with
  | none => rfl
  | some q =>
    obtain ⟨a, x, b, e1, e2, -⟩ := take_some (o := q.1) (l' := q.2) ht
    have := h x (by rw [e1]; simp)
    rw [this] at e2; cases e2

theorem take_split {p : Obj → Bool} {f : Obj → Obj} {a b : List Obj} {x : Obj} (ha : ∀ y ∈ a, p y = false) (hx : p x = true) :
    take p f (a ++ x :: b) = some (f x, a ++ f x :: b) := by
  induction a with
  | nil => simp [take, hx]
  | cons y ys ih =>
    rw [List.cons_append, take, if_neg (by rw [ha y (by simp)]; simp), ih (fun z hz => ha z (by simp [hz]))]
    rfl

/-- `o` is still there. -/
def Kept (o : Obj) (l : List Obj) : Prop := ∃ o' ∈ l, o'.base = o.base ∧ o'.file = o.file ∧ o'.pinned = true

theorem dlopen_kept {d : Disk} {path : Str} {l : List Obj} {o : Obj} (h : Kept o l) : Kept o (dlopen d path l).2 := by
  have key : ∀ {p : Obj → Bool} {f : Obj → Obj}, (∀ x, (f x).base = x.base ∧ (f x).file = x.file ∧ (f x).pinned = true) →
      ∀ {q}, take p f l = some q → Kept o q.2 := by
    intro p f hf q ht
    obtain ⟨a, x, b, e1, e2, e3, e4, e5⟩ := take_some (o := q.1) (l' := q.2) ht
    obtain ⟨o', hm, h1, h2, h3⟩ := h
    rw [e1] at hm
    rw [e5]
    rcases List.mem_append.1 hm with hm | hm
    · exact ⟨o', by simp [hm], h1, h2, h3⟩
    · rcases List.mem_cons.1 hm with rfl | hm
      · exact ⟨f o', by simp, (hf o').1.trans h1, (hf o').2.1.trans h2, (hf o').2.2⟩
      · exact ⟨o', by simp [hm], h1, h2, h3⟩
  unfold dlopen
  cases ht : take (fun o => o.names.contains path) (fun o => { o with pinned := true }) l with
  | some q => exact key (f := fun o => { o with pinned := true }) (fun x => ⟨rfl, rfl, rfl⟩) ht
  | none =>
    simp only
    cases hf : d.file path with
    | none => exact h
    | some f =>
      simp only
      cases ht2 : take (fun o => o.file.inode == f.inode) (fun o => { o with names := path :: o.names, pinned := true }) l with
      | some q => exact key (f := fun o => { o with names := path :: o.names, pinned := true }) (fun x => ⟨rfl, rfl, rfl⟩) ht2
      | none =>
        simp only
        split
        · obtain ⟨o', hm, h1⟩ := h
          exact ⟨o', by simp [hm], h1⟩
        · exact h

/-- What `dlopen` returns is there, and held. -/
theorem dlopen_held {d : Disk} {path : Str} {l : List Obj} {o : Obj} (h : (dlopen d path l).1 = some o) :
    o ∈ (dlopen d path l).2 ∧ o.pinned = true := by
  unfold dlopen at h ⊢
  cases ht : take (fun o => o.names.contains path) (fun o => { o with pinned := true }) l with
  | some q =>
    obtain ⟨a, x, b, e1, e2, e3, e4, e5⟩ := take_some (o := q.1) (l' := q.2) ht
    simp only [ht, Option.some.injEq] at h ⊢
    rw [← h, e5, e4]; simp
  | none =>
    simp only [ht] at h ⊢
    cases hf : d.file path with
    | none => simp [hf] at h
    | some f =>
      simp only [hf] at h ⊢
      cases ht2 : take (fun o => o.file.inode == f.inode) (fun o => { o with names := path :: o.names, pinned := true }) l with
      | some q =>
        obtain ⟨a, x, b, e1, e2, e3, e4, e5⟩ := take_some (o := q.1) (l' := q.2) ht2
        simp only [ht2, Option.some.injEq] at h ⊢
        rw [← h, e5, e4]; simp
      | none =>
        simp only [ht2] at h ⊢
        by_cases hl : f.loads = true
        · rw [if_pos hl] at h ⊢
          simp only [Option.some.injEq] at h
          rw [← h]; simp
        · rw [if_neg hl] at h; simp at h

theorem opened_kept {p : Proc} {d w m} {o : Obj} (h : Kept o p.objs) : Kept o (opened p d w m).2 := by
  unfold opened
  cases m with
  | error e => exact h
  | ok m =>
    simp only
    split
    · exact dlopen_kept h
    · exact h

theorem opened_held {p : Proc} {d w m} {o : Obj} (h : (opened p d w m).1 = some o) : o ∈ (opened p d w m).2 ∧ o.pinned = true := by
  unfold opened at h ⊢
  cases m with
  | error e => simp at h
  | ok m =>
    simp only at h ⊢
    by_cases hop : opens p.rt w m = true
    · rw [if_pos hop] at h ⊢; exact dlopen_held h
    · rw [if_neg hop] at h; simp at h

theorem step_kept {fuel : Nat} {p p' : Proc} {a : Act} {r : Option Nat} {o : Obj} (h : step fuel p a = some (p', r)) (hk : Kept o p.objs) :
    Kept o p'.objs := by
  cases a with
  | apply d w m =>
    simp only [step, Option.map_eq_some_iff, Prod.mk.injEq] at h
    obtain ⟨x, -, rfl, -⟩ := h
    exact opened_kept hk
  | other r =>
    cases r with
    | apply => simp [step] at h
    | revertAll | check | toggle =>
      simp only [step, Option.map_eq_some_iff, Prod.mk.injEq] at h
      obtain ⟨x, -, rfl, -⟩ := h
      exact hk
  | program keep new =>
    simp only [step, Option.some.injEq, Prod.mk.injEq] at h
    obtain ⟨rfl, -⟩ := h
    obtain ⟨o', h1, h2, h3, h4⟩ := hk
    exact ⟨o', by rw [List.mem_append, List.mem_filter]; exact .inl ⟨h1, by simp [h4]⟩, h2, h3, h4⟩

theorem run_kept {fuel : Nat} {as : List Act} {p p' : Proc} {o : Obj} (h : run fuel p as = some p') (hk : Kept o p.objs) : Kept o p'.objs := by
  induction as generalizing p with
  | nil => simp only [run, Option.some.injEq] at h; rw [← h]; exact hk
  | cons a as ih =>
    simp only [run, Option.bind_eq_some_iff] at h
    obtain ⟨x, h1, h2⟩ := h
    exact ih h2 (step_kept (r := x.2) h1 hk)

/-- The first object of name `path` is `o`, and libpulp holds it. -/
def First (path : Str) (o : Obj) (l : List Obj) : Prop :=
  ∃ a x b, l = a ++ x :: b ∧ (∀ y ∈ a, path ∉ y.names) ∧ path ∈ x.names ∧ x.base = o.base ∧ x.file = o.file ∧ x.pinned = true

theorem dlopen_first_same {d : Disk} {path : Str} {l : List Obj} {o : Obj} (h : First path o l) :
    First path o (dlopen d path l).2 ∧ ∃ x, (dlopen d path l).1 = some x ∧ x.base = o.base ∧ x.file = o.file := by
  obtain ⟨a, x, b, rfl, h1, h2, h3, h4, h5⟩ := h
  unfold dlopen
  rw [take_split (fun y hy => by simpa using h1 y hy) (by simpa using h2)]
  exact ⟨⟨a, _, b, rfl, h1, h2, h3, h4, rfl⟩, _, rfl, h3, h4⟩

theorem replace_first {path : Str} {o : Obj} {a b : List Obj} {x : Obj} {f : Obj → Obj} (h : First path o (a ++ x :: b))
    (hn : path ∈ (f x).names ↔ path ∈ x.names) (hf : (f x).base = x.base ∧ (f x).file = x.file ∧ (f x).pinned = true) :
    First path o (a ++ f x :: b) := by
  obtain ⟨c, y, e, h0, h1, h2, h3, h4, h5⟩ := h
  induction a generalizing c with
  | nil =>
    cases c with
    | nil =>
      simp only [List.nil_append, List.cons.injEq] at h0
      obtain ⟨rfl, rfl⟩ := h0
      exact ⟨[], f x, b, rfl, by simp, hn.2 h2, hf.1.trans h3, hf.2.1.trans h4, hf.2.2⟩
    | cons z zs =>
      simp only [List.nil_append, List.cons_append, List.cons.injEq] at h0
      obtain ⟨rfl, rfl⟩ := h0
      refine ⟨f x :: zs, y, e, by simp, ?_, h2, h3, h4, h5⟩
      intro y' hy'
      rcases List.mem_cons.1 hy' with rfl | hy'
      · exact fun hc => h1 x (by simp) (hn.1 hc)
      · exact h1 y' (by simp [hy'])
  | cons z zs ih =>
    cases c with
    | nil =>
      simp only [List.nil_append, List.cons_append, List.cons.injEq] at h0
      obtain ⟨rfl, rfl⟩ := h0
      exact ⟨[], z, zs ++ f x :: b, rfl, by simp, h2, h3, h4, h5⟩
    | cons c cs =>
      simp only [List.cons_append, List.cons.injEq] at h0
      obtain ⟨rfl, h0⟩ := h0
      obtain ⟨c', y', e', g0, g1, g2⟩ := ih cs h0 (fun y hy => h1 y (by simp [hy]))
      refine ⟨z :: c', y', e', by rw [List.cons_append, g0]; rfl, ?_, g2⟩
      intro y'' hy''
      rcases List.mem_cons.1 hy'' with rfl | hy''
      · exact h1 _ (by simp)
      · exact g1 _ hy''

theorem append_first {path : Str} {o : Obj} {l k : List Obj} (h : First path o l) : First path o (l ++ k) := by
  obtain ⟨a, x, b, rfl, h⟩ := h
  exact ⟨a, x, b ++ k, by simp, h⟩

theorem dlopen_first {d : Disk} {path q : Str} {l : List Obj} {o : Obj} (h : First path o l) : First path o (dlopen d q l).2 := by
  by_cases hq : q = path
  · subst hq; exact (dlopen_first_same h).1
  unfold dlopen
  cases ht : take (fun o => o.names.contains q) (fun o => { o with pinned := true }) l with
  | some r =>
    obtain ⟨a, x, b, e1, e2, e3, e4, e5⟩ := take_some (o := r.1) (l' := r.2) ht
    simp only
    rw [e5]
    exact replace_first (f := fun o => { o with pinned := true }) (by rw [← e1]; exact h) Iff.rfl ⟨rfl, rfl, rfl⟩
  | none =>
    simp only
    cases hf : d.file q with
    | none => exact h
    | some f =>
      simp only
      cases ht2 : take (fun o => o.file.inode == f.inode) (fun o => { o with names := q :: o.names, pinned := true }) l with
      | some r =>
        obtain ⟨a, x, b, e1, e2, e3, e4, e5⟩ := take_some (o := r.1) (l' := r.2) ht2
        simp only
        rw [e5]
        refine replace_first (f := fun o => { o with names := q :: o.names, pinned := true }) (by rw [← e1]; exact h) ?_ ⟨rfl, rfl, rfl⟩
        simp only [List.mem_cons]
        exact ⟨fun h => h.resolve_left (fun e => hq e.symm), .inr⟩
      | none =>
        simp only
        split
        · exact append_first h
        · exact h

theorem step_first {fuel : Nat} {p p' : Proc} {a : Act} {r : Option Nat} {path : Str} {o : Obj} (h : step fuel p a = some (p', r))
    (hk : First path o p.objs) : First path o p'.objs := by
  cases a with
  | apply d w m =>
    simp only [step, Option.map_eq_some_iff, Prod.mk.injEq] at h
    obtain ⟨x, -, rfl, -⟩ := h
    unfold opened
    cases m with
    | error e => exact hk
    | ok m =>
      simp only
      split
      · exact dlopen_first hk
      · exact hk
  | other r =>
    cases r with
    | apply => simp [step] at h
    | revertAll | check | toggle =>
      simp only [step, Option.map_eq_some_iff, Prod.mk.injEq] at h
      obtain ⟨x, -, rfl, -⟩ := h
      exact hk
  | program keep new =>
    simp only [step, Option.some.injEq, Prod.mk.injEq] at h
    obtain ⟨rfl, -⟩ := h
    apply append_first
    obtain ⟨a, x, b, e, h1, h2, h3, h4, h5⟩ := hk
    rw [e, List.filter_append, List.filter_cons, if_pos (by simp [h5])]
    exact ⟨_, x, _, rfl, fun y hy => h1 y (List.mem_filter.1 hy).1, h2, h3, h4, h5⟩

theorem run_first {fuel : Nat} {as : List Act} {p p' : Proc} {path : Str} {o : Obj} (h : run fuel p as = some p') (hk : First path o p.objs) :
    First path o p'.objs := by
  induction as generalizing p with
  | nil => simp only [run, Option.some.injEq] at h; rw [← h]; exact hk
  | cons a as ih =>
    simp only [run, Option.bind_eq_some_iff] at h
    obtain ⟨x, h1, h2⟩ := h
    exact ih h2 (step_first (r := x.2) h1 hk)

/-- The answer 0 to an apply: the container was opened. -/
theorem opens_of_answer {fuel : Nat} {s : State} {w : World} {m : Meta} (ht : m.type = 1) {h : Option Obj} {x : State × Nat}
    (hs : serve fuel s (.apply (worldOf h w) (.ok m)) = some x) (hx : x.2 = 0) (hi : Idle s) : opens s w m = true ∧ h.isSome = true := by
  have hg : ∀ w' : World, gate w' s = if s.err ≠ ENONE then (s, some s.err) else if w'.busy then (s, some EAGAIN) else (s, none) :=
    gate_clean hi
  simp only [serve, Option.some.injEq] at hs
  subst hs
  unfold applyPatch at hx
  rw [hg] at hx
  unfold opens
  rw [hg]
  by_cases he : s.err ≠ ENONE
  · rw [if_pos he] at hx; exact absurd hx he
  rw [if_neg he] at hx ⊢
  by_cases hb : w.busy = true
  · rw [if_pos (show (worldOf h w).busy = true from hb)] at hx; exact absurd (show EAGAIN = 0 from hx) (by decide)
  rw [if_neg (show ¬ (worldOf h w).busy = true from hb)] at hx
  rw [if_neg hb]
  simp only at hx ⊢
  unfold loadPatch at hx
  simp only [ht] at hx
  rw [if_neg (show ¬ (1 : Nat) = 2 by decide)] at hx
  by_cases hsn : sanity (worldOf h w) m s ≠ 0
  · rw [if_pos hsn] at hx; exact absurd hx hsn
  rw [if_neg hsn] at hx
  have hsn' : sanity w m s = 0 := Decidable.not_not.1 hsn
  refine ⟨by simp [ht, hsn'], ?_⟩
  cases h with
  | some o => rfl
  | none =>
    rw [if_pos ⟨by decide, by simp [worldOf]⟩] at hx
    exact absurd (show EDLOPEN = 0 from hx) (by decide)

end Verif.Container
