import Verif.Loader.Spec
import Verif.Runtime.Invariant

/-! Supporting lemmas for `Verif.Loader.Props`. -/

namespace Verif.Loader

open Verif.Runtime (State Request World Meta)
open Verif.Runtime.Spec
open Verif.Session.Spec (notes)
open Verif.Loader.Spec

/-! ### changing one object -/

theorem change_keep (p : Obj → Bool) (g : Obj → Obj) {l : List Obj} {o : Obj} (h : o ∈ l) : o ∈ change p g l ∨ g o ∈ change p g l := by
  induction l with
  | nil => cases h
  | cons x l ih =>
    unfold change
    split
    · rcases List.mem_cons.mp h with rfl | h
      · exact .inr (List.mem_cons_self ..)
      · exact .inl (List.mem_cons_of_mem _ h)
    · rcases List.mem_cons.mp h with rfl | h
      · exact .inl (List.mem_cons_self ..)
      · exact (ih h).imp (List.mem_cons_of_mem _) (List.mem_cons_of_mem _)

theorem change_mem {p : Obj → Bool} {g : Obj → Obj} {l : List Obj} {o : Obj} (h : o ∈ change p g l) : o ∈ l ∨ ∃ o0 ∈ l, p o0 = true ∧ o = g o0 := by
  induction l with
  | nil => cases h
  | cons x l ih =>
    unfold change at h
    split at h
    · rcases List.mem_cons.mp h with rfl | h
      · exact .inr ⟨x, List.mem_cons_self .., by assumption, rfl⟩
      · exact .inl (List.mem_cons_of_mem _ h)
    · rcases List.mem_cons.mp h with rfl | h
      · exact .inl (List.mem_cons_self ..)
      · rcases ih h with h | ⟨o0, h1, h2⟩
        · exact .inl (List.mem_cons_of_mem _ h)
        · exact .inr ⟨o0, List.mem_cons_of_mem _ h1, h2⟩

theorem change_map {α : Type} {p : Obj → Bool} {g : Obj → Obj} (k : Obj → α) (hk : ∀ o, k (g o) = k o) (l : List Obj) : (change p g l).map k = l.map k := by
  induction l with
  | nil => rfl
  | cons x l ih =>
    unfold change
    split
    · simp [hk]
    · simp [ih]

theorem change_find {p q : Obj → Bool} {g : Obj → Obj} {l : List Obj} {o : Obj} (hq : ∀ x, q (g x) = q x) (h : l.find? q = some o) :
    ∃ o', (change p g l).find? q = some o' ∧ (o' = o ∨ o' = g o) := by
  induction l with
  | nil => cases h
  | cons x l ih =>
    unfold change
    rw [List.find?_cons] at h
    split
    · rw [List.find?_cons, hq]
      split at h
      · cases h
        exact ⟨_, rfl, .inr rfl⟩
      · exact ⟨_, h, .inl rfl⟩
    · rw [List.find?_cons]
      split at h
      · cases h
        exact ⟨_, rfl, .inl rfl⟩
      · exact ih h

theorem take_same (b : Bool) (o : Obj) : Same o (o.take b) := by unfold Obj.take; split <;> exact ⟨rfl, rfl⟩

theorem take_names (b : Bool) (o : Obj) : (o.take b).names = o.names := by unfold Obj.take; split <;> rfl

theorem take_ino (b : Bool) (o : Obj) : (o.take b).ino = o.ino := by unfold Obj.take; split <;> rfl

theorem take_ulp (b : Bool) (o : Obj) : o.ulp ≤ (o.take b).ulp := by
  unfold Obj.take
  split
  · exact Nat.le_succ _
  · exact Nat.le_refl _

/-- Opening an object under a name, perhaps a further one. -/
structure Opens (path : Str) (g : Obj → Obj) : Prop where
  same : ∀ o, Same o (g o)
  ino : ∀ o, (g o).ino = o.ino
  ulp : ∀ o, o.ulp ≤ (g o).ulp
  names : ∀ o q, q ≠ path → (g o).names.contains q = o.names.contains q

/-- What `dlopen` does: to an object that is there, or it loads one. -/
theorem openObj_cases {b : Bool} {fs : Str → Option File} {objs objs' : List Obj} {path : Str} {base : Nat} {o : Obj} (h : openObj b fs objs path base = some (objs', o)) :
    (∃ p g, objs' = change p g objs ∧ Opens path g ∧ (∀ x, (g x).ulp = (x.take b).ulp) ∧ objs.find? p = some o ∧
      ((p = (fun o => o.names.contains path) ∧ ∀ x, (g x).names = x.names) ∨
       (objs.find? (fun o => o.names.contains path) = none ∧ (∀ x, path ∈ (g x).names) ∧ ∃ f, fs path = some f ∧ o.ino = f.ino))) ∨
    (objs.find? (fun o => o.names.contains path) = none ∧ ∃ f, fs path = some f ∧ objs.find? (fun o => o.ino == f.ino) = none ∧ o = ⟨[path], f.ino, f.img, base, 0, 0⟩ ∧
      objs' = objs ++ [o.take b]) := by
  unfold openObj at h
  split at h
  · rename_i x hx
    cases h
    exact .inl ⟨_, _, rfl, ⟨take_same b, take_ino b, take_ulp b, fun o q _ => by rw [take_names]⟩, fun _ => rfl, hx, .inl ⟨rfl, take_names b⟩⟩
  · rename_i hn
    split at h
    · cases h
    · rename_i f hf
      split at h
      · rename_i x hx
        cases h
        refine .inl ⟨_, _, rfl, ⟨fun o => take_same b _, fun o => take_ino b _, fun o => take_ulp b { o with names := o.names ++ [path] }, fun o q hq => ?_⟩, fun x => ?_, hx, .inr ⟨hn, fun x => ?_, f, hf, ?_⟩⟩
        · rw [take_names]
          simp [hq]
        · unfold Obj.take; split <;> rfl
        · rw [take_names]; simp
        · have := List.find?_some hx
          simpa using this
      · rename_i hi
        cases h
        exact .inr ⟨hn, f, hf, hi, rfl, rfl⟩

/-! ### what stays -/

/-- What libpulp has opened stays. -/
def Persist (objs objs' : List Obj) : Prop := ∀ o ∈ objs, 0 < o.ulp → ∃ o' ∈ objs', Same o o' ∧ 0 < o'.ulp

theorem Persist.refl (objs : List Obj) : Persist objs objs := fun o h h1 => ⟨o, h, ⟨rfl, rfl⟩, h1⟩

theorem Same.trans {a b c : Obj} (h : Same a b) (h' : Same b c) : Same a c := ⟨h'.1.trans h.1, h'.2.trans h.2⟩

theorem Persist.trans {a b c : List Obj} (h : Persist a b) (h' : Persist b c) : Persist a c := by
  intro o h1 h2
  obtain ⟨o', h3, h4, h5⟩ := h o h1 h2
  obtain ⟨o'', h6, h7, h8⟩ := h' o' h3 h5
  exact ⟨o'', h6, Same.trans h4 h7, h8⟩

theorem open_persist {b : Bool} {fs : Str → Option File} {objs objs' : List Obj} {path : Str} {base : Nat} {o : Obj} (h : openObj b fs objs path base = some (objs', o)) :
    Persist objs objs' := by
  intro x hx h1
  rcases openObj_cases h with ⟨p, g, rfl, hg, -, -, -⟩ | ⟨-, f, -, -, -, rfl⟩
  · rcases change_keep p g hx with h2 | h2
    · exact ⟨x, h2, ⟨rfl, rfl⟩, h1⟩
    · exact ⟨g x, h2, hg.same x, Nat.lt_of_lt_of_le h1 (hg.ulp x)⟩
  · exact ⟨x, List.mem_append_left _ hx, ⟨rfl, rfl⟩, h1⟩

theorem close_persist {objs : List Obj} {i : Nat} : Persist objs (closeObj objs i) := by
  intro x hx h1
  unfold closeObj
  split
  · exact ⟨x, hx, ⟨rfl, rfl⟩, h1⟩
  · rename_i o ho
    obtain ⟨j, hj⟩ := List.mem_iff_getElem?.mp hx
    by_cases e : j = i
    · subst e
      rw [ho] at hj; cases hj
      rw [if_neg (by omega)]
      refine ⟨{ x with prog := x.prog - 1 }, ?_, ⟨rfl, rfl⟩, h1⟩
      obtain ⟨hl, -⟩ := List.getElem?_eq_some_iff.mp ho
      exact List.mem_iff_getElem.mpr ⟨j, by simpa using hl, by simp⟩
    · refine ⟨x, ?_, ⟨rfl, rfl⟩, h1⟩
      split
      · rw [List.mem_eraseIdx_iff_getElem?]
        exact ⟨j, e, hj⟩
      · exact List.mem_iff_getElem?.mpr ⟨j, by rw [List.getElem?_set_ne (Ne.symm e)]; exact hj⟩

theorem after_persist (c : Conf) (v : World) (m : Meta) (base : Nat) (s : State) (a : Nat) : Persist c.objs (c.after v m base s a).objs := by
  show Persist c.objs (match openObj true c.fs c.objs m.soName base with | none => c.objs | some (objs, _) => if reaches v m c.s then objs else c.objs)
  cases h : openObj true c.fs c.objs m.soName base with
  | none => exact .refl _
  | some p =>
    obtain ⟨objs', o⟩ := p
    show Persist c.objs (if _ then _ else _)
    split
    · exact open_persist h
    · exact .refl _

section
variable {fuel : Nat} {okR : Request → Prop}

theorem step_persist {c d : Conf} (h : Step fuel okR c d) : Persist c.objs d.objs := by
  cases h with
  | files fs h => exact .refl _
  | progOpen path base objs o hf h => exact open_persist h
  | progClose i o h h1 => exact close_persist
  | apply v m base s a hf hr h => exact after_persist _ _ _ _ _ _
  | other r s a hr hk h => exact .refl _

theorem steps_persist {c d : Conf} (h : Steps fuel okR c d) : Persist c.objs d.objs := by
  induction h with
  | refl => exact .refl _
  | tail _ h ih => exact ih.trans (step_persist h)

/-! ### what a name stands for -/

/-- The name stands for that object, which libpulp has opened. -/
def Named (path : Str) (o : Obj) (objs : List Obj) : Prop := ∃ o', objs.find? (fun o => o.names.contains path) = some o' ∧ Same o o' ∧ 0 < o'.ulp

theorem open_named {b : Bool} {fs : Str → Option File} {objs objs' : List Obj} {path q : Str} {base : Nat} {x o : Obj} (h : openObj b fs objs q base = some (objs', x))
    (hn : Named path o objs) : Named path o objs' := by
  obtain ⟨o', h1, h2, h3⟩ := hn
  rcases openObj_cases h with ⟨p, g, rfl, hg, -, -, hc⟩ | ⟨-, f, -, -, -, rfl⟩
  · obtain ⟨o'', h4, h5⟩ := change_find (p := p) (g := g) (q := fun o => o.names.contains path) (fun x => by
      rcases hc with ⟨-, hc⟩ | ⟨hc, -⟩
      · rw [hc]
      · refine hg.names x path fun e => ?_
        subst e
        rw [hc] at h1; cases h1) h1
    refine ⟨o'', h4, ?_⟩
    rcases h5 with rfl | rfl
    · exact ⟨h2, h3⟩
    · exact ⟨Same.trans h2 (hg.same o'), Nat.lt_of_lt_of_le h3 (hg.ulp o')⟩
  · exact ⟨o', by rw [List.find?_append, h1]; rfl, h2, h3⟩

theorem set_find {q : Obj → Bool} {l : List Obj} {i : Nat} {x o y : Obj} (hi : l[i]? = some o) (hq : q x = q o) (h : l.find? q = some y) :
    ∃ y', (l.set i x).find? q = some y' ∧ (y' = y ∨ (y = o ∧ y' = x)) := by
  induction l generalizing i with
  | nil => cases h
  | cons a l ih =>
    rw [List.find?_cons] at h
    cases i with
    | zero =>
      cases hi
      rw [List.set_cons_zero, List.find?_cons, hq]
      split at h
      · cases h; exact ⟨_, rfl, .inr ⟨rfl, rfl⟩⟩
      · exact ⟨_, h, .inl rfl⟩
    | succ i =>
      rw [List.set_cons_succ, List.find?_cons]
      split at h
      · cases h; exact ⟨_, rfl, .inl rfl⟩
      · exact ih hi h

theorem erase_find {q : Obj → Bool} {l : List Obj} {i : Nat} {o y : Obj} (hi : l[i]? = some o) (hne : o ≠ y) (h : l.find? q = some y) :
    (l.eraseIdx i).find? q = some y := by
  induction l generalizing i with
  | nil => cases h
  | cons a l ih =>
    rw [List.find?_cons] at h
    cases i with
    | zero =>
      cases hi
      split at h
      · cases h; exact absurd rfl hne
      · exact h
    | succ i =>
      rw [List.eraseIdx_cons_succ, List.find?_cons]
      split at h
      · cases h; rfl
      · exact ih hi h

theorem close_named {objs : List Obj} {i : Nat} {path : Str} {o : Obj} (hn : Named path o objs) : Named path o (closeObj objs i) := by
  obtain ⟨o', h1, h2, h3⟩ := hn
  unfold closeObj
  split
  · exact ⟨o', h1, h2, h3⟩
  · rename_i x hx
    split
    · refine ⟨o', erase_find hx (fun e => ?_) h1, h2, h3⟩
      subst e; omega
    · obtain ⟨y, h4, h5⟩ := set_find (x := { x with prog := x.prog - 1 }) (q := fun o => o.names.contains path) hx rfl h1
      refine ⟨y, h4, ?_⟩
      rcases h5 with rfl | ⟨rfl, rfl⟩
      · exact ⟨h2, h3⟩
      · exact ⟨h2, h3⟩

theorem after_named {c : Conf} {path : Str} {o : Obj} (v : World) (m : Meta) (base : Nat) (s : State) (a : Nat) (hn : Named path o c.objs) :
    Named path o (c.after v m base s a).objs := by
  show Named path o (match openObj true c.fs c.objs m.soName base with | none => c.objs | some (objs, _) => if reaches v m c.s then objs else c.objs)
  cases h : openObj true c.fs c.objs m.soName base with
  | none => exact hn
  | some p =>
    obtain ⟨objs', x⟩ := p
    show Named path o (if _ then _ else _)
    split
    · exact open_named h hn
    · exact hn

theorem step_named {c d : Conf} {path : Str} {o : Obj} (h : Step fuel okR c d) (hn : Named path o c.objs) : Named path o d.objs := by
  cases h with
  | files fs h => exact hn
  | progOpen q base objs x hf h => exact open_named h hn
  | progClose i x h h1 => exact close_named hn
  | apply v m base s a hf hr h => exact after_named _ _ _ _ _ hn
  | other r s a hr hk h => exact hn

theorem steps_named {c d : Conf} {path : Str} {o : Obj} (h : Steps fuel okR c d) (hn : Named path o c.objs) : Named path o d.objs := by
  induction h with
  | refl => exact hn
  | tail _ h ih => exact step_named h ih

/-- Opening by a name that stands for an object gives that. -/
theorem Named.opened {b : Bool} {fs : Str → Option File} {objs : List Obj} {path : Str} {base : Nat} {o : Obj} (hn : Named path o objs) :
    ∃ objs' x, openObj b fs objs path base = some (objs', x) ∧ Same o x := by
  obtain ⟨o', h1, h2, h3⟩ := hn
  refine ⟨change (fun o => o.names.contains path) (Obj.take b) objs, o', ?_, h2⟩
  unfold openObj
  rw [h1]

/-- What libpulp opens gets that name. -/
theorem open_gives {fs : Str → Option File} {objs objs' : List Obj} {path : Str} {base : Nat} {o : Obj} (h : openObj true fs objs path base = some (objs', o)) :
    Named path o objs' := by
  rcases openObj_cases h with ⟨p, g, rfl, hg, hu, hp, hc⟩ | ⟨hn, f, -, -, rfl, rfl⟩
  · have hu' : 0 < (g o).ulp := by rw [hu]; exact Nat.succ_pos _
    have key : ∀ l : List Obj, l.find? p = some o → (∀ x, p x = true → (g x).names.contains path = true) →
        ((∀ x ∈ l, x.names.contains path = false) ∨ p = fun o => o.names.contains path) → (change p g l).find? (fun o => o.names.contains path) = some (g o) := by
      intro l h1 h2 h3
      induction l with
      | nil => cases h1
      | cons x l ih =>
        rw [List.find?_cons] at h1
        unfold change
        split at h1
        · rename_i hx
          cases h1
          rw [if_pos hx, List.find?_cons, h2 _ hx]
        · rename_i hx
          rw [if_neg (by rw [hx]; nofun), List.find?_cons]
          have : x.names.contains path = false := by
            rcases h3 with h3 | rfl
            · exact h3 x (List.mem_cons_self ..)
            · exact hx
          rw [this]
          exact ih h1 (h3.imp (fun h y hy => h y (List.mem_cons_of_mem _ hy)) id)
    rcases hc with ⟨rfl, hc⟩ | ⟨hn, hc, -⟩
    · exact ⟨g o, key objs hp (fun x hx => by rw [hc]; exact hx) (.inr rfl), hg.same o, hu'⟩
    · refine ⟨g o, key objs hp (fun x _ => by simpa using hc x) (.inl fun x hx => ?_), hg.same o, hu'⟩
      have := List.find?_eq_none.mp hn x hx
      simpa using this
  · refine ⟨Obj.take true ⟨[path], f.ino, f.img, base, 0, 0⟩, ?_, take_same .., Nat.succ_pos _⟩
    rw [List.find?_append, hn]
    simp [Obj.take]

/-! ### places and files -/

def Apart (objs : List Obj) : Prop := objs.Pairwise fun o o' => o'.base + o'.img.size ≤ o.base ∨ o.base + o.img.size ≤ o'.base

def place (o : Obj) : Nat × Nat := (o.base, o.img.size)

theorem apart_iff (objs : List Obj) : Apart objs ↔ (objs.map place).Pairwise fun x y => y.1 + y.2 ≤ x.1 ∨ x.1 + x.2 ≤ y.1 := by
  unfold Apart; rw [List.pairwise_map]; exact Iff.rfl

theorem Same.place {o o' : Obj} (h : Same o o') : place o' = place o := by unfold Loader.place; rw [h.1, h.2]

theorem open_apart {b : Bool} {fs : Str → Option File} {objs objs' : List Obj} {path : Str} {base : Nat} {o : Obj} (hf : ∀ f, fs path = some f → Free objs base f.img.size)
    (h : openObj b fs objs path base = some (objs', o)) (ha : Apart objs) : Apart objs' := by
  rcases openObj_cases h with ⟨p, g, rfl, hg, -, -, -⟩ | ⟨-, f, h1, -, rfl, rfl⟩
  · rw [apart_iff] at ha ⊢
    rw [change_map place (fun o => Same.place (hg.same o))]
    exact ha
  · refine List.pairwise_append.mpr ⟨ha, List.pairwise_singleton .., fun x hx y hy => ?_⟩
    rw [List.mem_singleton] at hy
    subst hy
    obtain ⟨e1, e2⟩ := take_same b ⟨[path], f.ino, f.img, base, 0, 0⟩
    rw [e1, e2]
    exact (hf f h1).2 x hx

theorem close_apart {objs : List Obj} {i : Nat} (ha : Apart objs) : Apart (closeObj objs i) := by
  unfold closeObj
  split
  · exact ha
  · rename_i o ho
    split
    · exact ha.sublist (List.eraseIdx_sublist ..)
    · rw [apart_iff] at ha ⊢
      have : (objs.set i { o with prog := o.prog - 1 }).map place = objs.map place := by
        refine List.ext_getElem? fun j => ?_
        rw [List.getElem?_map, List.getElem?_map]
        by_cases e : i = j
        · subst e
          obtain ⟨hl, -⟩ := List.getElem?_eq_some_iff.mp ho
          rw [List.getElem?_set_self hl, ho]; rfl
        · rw [List.getElem?_set_ne e]
      rw [this]; exact ha

/-- The objects after an event are as before, or one more loaded from its file. -/
def Origin (fs : Str → Option File) (objs objs' : List Obj) : Prop :=
  ∀ o' ∈ objs', (∃ o ∈ objs, o'.ino = o.ino ∧ o'.img = o.img) ∨ ∃ p f, fs p = some f ∧ o'.ino = f.ino ∧ o'.img = f.img

theorem open_origin {b : Bool} {fs : Str → Option File} {objs objs' : List Obj} {path : Str} {base : Nat} {o : Obj} (h : openObj b fs objs path base = some (objs', o)) :
    Origin fs objs objs' := by
  intro x hx
  rcases openObj_cases h with ⟨p, g, rfl, hg, -, -, -⟩ | ⟨-, f, h1, -, rfl, rfl⟩
  · left
    rcases change_mem hx with h1 | ⟨y, h1, -, rfl⟩
    · exact ⟨x, h1, rfl, rfl⟩
    · exact ⟨y, h1, hg.ino y, (hg.same y).1⟩
  · rcases List.mem_append.mp hx with h2 | h2
    · exact .inl ⟨x, h2, rfl, rfl⟩
    · rw [List.mem_singleton] at h2
      subst h2
      exact .inr ⟨path, f, h1, take_ino .., (take_same ..).1⟩

theorem close_origin {fs : Str → Option File} {objs : List Obj} {i : Nat} : Origin fs objs (closeObj objs i) := by
  intro x hx
  left
  unfold closeObj at hx
  split at hx
  · exact ⟨x, hx, rfl, rfl⟩
  · rename_i o ho
    split at hx
    · exact ⟨x, List.mem_of_mem_eraseIdx hx, rfl, rfl⟩
    · rcases List.mem_or_eq_of_mem_set hx with h | rfl
      · exact ⟨x, h, rfl, rfl⟩
      · exact ⟨o, List.mem_of_getElem? ho, rfl, rfl⟩

theorem Origin.coherent {fs : Str → Option File} {objs objs' : List Obj} (h : Origin fs objs objs') (hc : Coherent fs objs) : Coherent fs objs' := by
  refine ⟨hc.links, fun p f hp o' ho' he => ?_⟩
  rcases h o' ho' with ⟨o, h1, h2, h3⟩ | ⟨q, g, h1, h2, h3⟩
  · rw [h3]; exact hc.loaded p f hp o h1 (h2 ▸ he)
  · rw [h3]; exact hc.links q p g f h1 hp (h2 ▸ he)

theorem after_objs {P : List Obj → Prop} {c : Conf} {v : World} {m : Meta} {base : Nat} {s : State} {a : Nat} (h0 : P c.objs)
    (h1 : ∀ objs o, openObj true c.fs c.objs m.soName base = some (objs, o) → P objs) : P (c.after v m base s a).objs := by
  show P (match openObj true c.fs c.objs m.soName base with | none => c.objs | some (objs, _) => if reaches v m c.s then objs else c.objs)
  cases h : openObj true c.fs c.objs m.soName base with
  | none => exact h0
  | some p =>
    obtain ⟨objs', x⟩ := p
    show P (if _ then _ else _)
    split
    · exact h1 _ _ h
    · exact h0

theorem step_tidy {c d : Conf} (h : Step fuel okR c d) (ht : Tidy c.fs c.objs) : Tidy d.fs d.objs := by
  cases h with
  | files fs h => exact ⟨ht.apart, h⟩
  | progOpen q base objs x hf h => exact ⟨open_apart hf h ht.apart, (open_origin h).coherent ht.files⟩
  | progClose i x h h1 => exact ⟨close_apart ht.apart, close_origin.coherent ht.files⟩
  | apply v m base s a hf hr h =>
    exact ⟨after_objs (P := Apart) ht.apart fun _ _ h => open_apart hf h ht.apart, after_objs (P := Coherent c.fs) ht.files fun _ _ h => (open_origin h).coherent ht.files⟩
  | other r s a hr hk h => exact ht

theorem steps_tidy {c d : Conf} (h : Steps fuel okR c d) (ht : Tidy c.fs c.objs) : Tidy d.fs d.objs := by
  induction h with
  | refl => exact ht
  | tail _ h ih => exact step_tidy h ih

/-! ### requests -/

theorem gate_worldOf (v : World) (x : Option (List Obj × Obj)) (s : State) : Runtime.gate (worldOf v x) s = Runtime.gate v s := by
  cases x <;> rfl

theorem sanity_worldOf (v : World) (x : Option (List Obj × Obj)) (m : Meta) (s : State) : Runtime.sanity (worldOf v x) m s = Runtime.sanity v m s := by
  cases x <;> rfl

theorem resolve_new {w : World} {lib : Str} {us : List Runtime.UnitM} {res : List (Nat × Nat)} (h : Runtime.resolveUnits w lib us = some res) : ∀ u ∈ us, w.newSym u.newName ≠ 0 := by
  induction us generalizing res with
  | nil => simp
  | cons u us ih =>
    simp only [Runtime.resolveUnits] at h
    split at h
    · cases h
    · split at h
      · cases h
      · rename_i h1
        cases hr : Runtime.resolveUnits w lib us with
        | none => rw [hr] at h; cases h
        | some r =>
          intro x hx
          rcases List.mem_cons.mp hx with rfl | hx
          · exact h1
          · exact ih hr x hx

/-- A request to apply that succeeds: the container was opened, and has all the functions. -/
theorem apply_ok {v : World} {x : Option (List Obj × Obj)} {m : Meta} {s s' : State} (hid : Idle s) (ht : m.type = 1)
    (h : Runtime.serve fuel s (.apply (worldOf v x) (.ok m)) = some (s', 0)) :
    reaches v m s = true ∧ ∃ objs o, x = some (objs, o) ∧ ∀ u ∈ m.units, o.addr u.newName ≠ 0 := by
  simp only [Runtime.serve, Runtime.applyPatch, gate_worldOf, Option.some.injEq, Prod.mk.injEq] at h
  obtain ⟨-, h⟩ := h
  unfold reaches
  rw [Runtime.gate_clean hid] at h ⊢
  by_cases he : s.err ≠ ENONE
  · rw [if_pos he] at h
    exact absurd h he
  rw [if_neg he] at h ⊢
  by_cases hb : v.busy = true
  · rw [if_pos hb] at h
    cases h
  rw [if_neg hb] at h ⊢
  simp only [Runtime.loadPatch, ht, sanity_worldOf] at h
  simp only [Option.isNone_none, Bool.true_and, ht]
  by_cases h1 : Runtime.sanity v m s = 0
  · refine ⟨by simp [h1], ?_⟩
    rw [if_neg (by simp [h1])] at h
    cases x with
    | none => simp [worldOf, EDLOPEN] at h
    | some p =>
      obtain ⟨objs, o⟩ := p
      refine ⟨objs, o, rfl, fun u hu => ?_⟩
      rw [if_neg (by simp [worldOf]), if_pos trivial] at h
      unfold Runtime.stateUpdate at h
      cases hr : Runtime.resolveUnits (worldOf v (some (objs, o))) m.lib m.units with
      | none => rw [hr] at h; cases h
      | some r => exact resolve_new hr u hu
  · exfalso
    simp [h1] at h

theorem Obj.covers {o : Obj} {n : Str} (h : o.addr n ≠ 0) : Covers o (o.addr n) := by
  unfold Obj.addr at h ⊢
  split at h
  · exact absurd rfl h
  · rename_i h1
    rw [if_neg h1]
    rcases o.img.inside n with h2 | h2
    · exact absurd h2 h1
    · exact ⟨Nat.le_add_right .., Nat.add_lt_add_left h2 _⟩

theorem notes_append (l : Session.Log) (r : Request) (a : Nat) : notes [] (l ++ [(r, a)]) = track (notes [] l) r a := by
  unfold notes
  rw [List.foldl_append]; rfl

theorem track_mem {ps : List Patch} {r : Request} {a : Nat} {p : Patch} (h : p ∈ track ps r a) :
    p ∈ ps ∨ ∃ w m, r = .apply w (.ok m) ∧ a = 0 ∧ m.type = 1 ∧ p = patchOf w m := by
  unfold track at h
  split at h
  · rename_i w m
    split at h
    · rename_i ht
      rcases List.mem_cons.mp h with rfl | h
      · exact .inr ⟨w, m, rfl, rfl, ht, rfl⟩
      · exact .inl h
    · split at h
      · exact .inl (List.mem_filter.mp h).1
      · exact .inl h
  · exact .inl (List.mem_filter.mp h).1
  · exact .inl h

/-- What the patches in force direct calls to is in objects that libpulp has opened. -/
def Homes (c : Conf) : Prop := ∀ p ∈ notes [] c.log, ∀ x ∈ p.repl, ∃ o ∈ c.objs, 0 < o.ulp ∧ Covers o x.2

theorem Same.covers {o o' : Obj} {a : Nat} (h : Same o o') (hc : Covers o a) : Covers o' a := by
  unfold Covers at hc ⊢
  rw [h.1, h.2]; exact hc

theorem Homes.persist {c : Conf} {objs : List Obj} (h : Homes c) (hp : Persist c.objs objs) : Homes { c with objs := objs } := by
  intro p h1 x h2
  obtain ⟨o, h3, h4, h5⟩ := h p h1 x h2
  obtain ⟨o', h6, h7, h8⟩ := hp o h3 h4
  exact ⟨o', h6, h8, Same.covers h7 h5⟩

theorem Named.mem {path : Str} {o : Obj} {objs : List Obj} (h : Named path o objs) : ∃ o' ∈ objs, path ∈ o'.names ∧ Same o o' ∧ 0 < o'.ulp := by
  obtain ⟨o', h1, h2, h3⟩ := h
  have := List.find?_some h1
  exact ⟨o', List.mem_of_find?_eq_some h1, by simpa using this, h2, h3⟩

structure L (m₀ : Mem) (F slot : Nat → Prop) (c : Conf) : Prop where
  inv : Runtime.Inv m₀ F slot c.s (notes [] c.log)
  homes : Homes c

theorem after_ok {c : Conf} {v : World} {m : Meta} {base : Nat} {s : State} (hid : Idle c.s) (ht : m.type = 1)
    (h : Runtime.serve fuel c.s (.apply (c.world v m base) (.ok m)) = some (s, 0)) :
    ∃ objs o, openObj true c.fs c.objs m.soName base = some (objs, o) ∧ (c.after v m base s 0).objs = objs ∧ c.world v m base = worldOf v (some (objs, o)) ∧
      ∀ u ∈ m.units, o.addr u.newName ≠ 0 := by
  obtain ⟨h1, objs, o, h2, h3⟩ := apply_ok hid ht h
  refine ⟨objs, o, h2, ?_, by unfold Conf.world; rw [h2], h3⟩
  show (match openObj true c.fs c.objs m.soName base with | none => c.objs | some (objs, _) => if reaches v m c.s then objs else c.objs) = objs
  rw [h2, h1]; rfl

theorem step_L {m₀ : Mem} {F slot : Nat → Prop} {c d : Conf} (hI : Runtime.Spec.Image m₀ F slot) (h : Step fuel (Fits m₀ F slot) c d) (hl : L m₀ F slot c) : L m₀ F slot d := by
  cases h with
  | files fs h => exact ⟨hl.inv, hl.homes⟩
  | progOpen q base objs x hf h => exact ⟨hl.inv, hl.homes.persist (open_persist h)⟩
  | progClose i x h h1 => exact ⟨hl.inv, hl.homes.persist close_persist⟩
  | apply v m base s a hf hr h =>
    refine ⟨?_, ?_⟩
    · show Runtime.Inv m₀ F slot s (notes [] (c.log ++ _))
      rw [notes_append]
      exact Runtime.serve_inv hI hr hl.inv h
    · have hp := after_persist c v m base s a
      intro p h1 x h2
      have h1 : p ∈ notes [] (c.log ++ [(.apply (c.world v m base) (.ok m), a)]) := h1
      rw [notes_append] at h1
      rcases track_mem h1 with h3 | ⟨w, m', h3, rfl, h4, rfl⟩
      · obtain ⟨o, h5, h6, h7⟩ := hl.homes p h3 x h2
        obtain ⟨o', h8, h9, h10⟩ := hp o h5 h6
        exact ⟨o', h8, h10, Same.covers h9 h7⟩
      · cases h3
        obtain ⟨objs, o, h5, h6, h7, h8⟩ := after_ok hl.inv.clean h4 h
        rw [h6]
        obtain ⟨o', h9, -, h10, h11⟩ := (open_gives h5).mem
        refine ⟨o', h9, h11, Same.covers h10 ?_⟩
        rw [h7] at h2
        obtain ⟨u, hu, rfl⟩ := List.mem_map.mp h2
        exact Obj.covers (h8 u hu)
  | other r s a hr hk h =>
    refine ⟨?_, ?_⟩
    · show Runtime.Inv m₀ F slot s (notes [] (c.log ++ _))
      rw [notes_append]
      exact Runtime.serve_inv hI hk hl.inv h
    · intro p h1 x h2
      have h1 : p ∈ notes [] (c.log ++ [(r, a)]) := h1
      rw [notes_append] at h1
      rcases track_mem h1 with h3 | ⟨w, m', h3, -⟩
      · exact hl.homes p h3 x h2
      · exact absurd h3 (hr w m')

theorem steps_L {m₀ : Mem} {F slot : Nat → Prop} {c d : Conf} (hI : Runtime.Spec.Image m₀ F slot) (h : Steps fuel (Fits m₀ F slot) c d) (hl : L m₀ F slot c) : L m₀ F slot d := by
  induction h with
  | refl => exact hl
  | tail _ h ih => exact step_L hI h ih

theorem start_L {m₀ : Mem} {F slot : Nat → Prop} (hI : Runtime.Spec.Image m₀ F slot) (fs : Str → Option File) (objs : List Obj) : L m₀ F slot (start fs objs m₀) :=
  ⟨Runtime.init_inv hI, by intro p hp; cases hp⟩

/-- Errors after the container was opened. -/
def Late (e : Nat) : Prop := e = 0 ∨ e = ENOOLDFUNC ∨ e = ENONEWFUNC ∨ e = ENOPATCHABLE ∨ e = ENOADDRESS ∨ e = EUNKNOWN ∨ e = ESTATE ∨ e = ENOMETA

theorem patchAddr_late (s : State) (old new : Nat) (en : Bool) : Late (Runtime.patchAddr s old new en).2 := by
  unfold Runtime.patchAddr X86.patchAddr
  simp only
  split
  · rename_i h
    split at h
    · cases h; unfold Late; simp
    · split at h <;> cases h
  · exact .inl rfl

theorem applyUnits_late {w : World} {lib : Str} {id : Runtime.Id} (us : List Runtime.UnitM) (s : State) : Late (Runtime.applyUnits w lib id us s).2 := by
  induction us generalizing s with
  | nil => exact .inl rfl
  | cons u us ih =>
    simp only [Runtime.applyUnits]
    split
    · unfold Late; simp
    · split
      · unfold Late; simp
      · split
        · exact patchAddr_late ..
        · exact ih _

theorem applyRefs_late {w : World} {tb ti so : Nat} (rs : List Runtime.RefM) (s : State) : Late (Runtime.applyRefs w tb ti so rs s).2 := by
  induction rs generalizing s with
  | nil => exact .inl rfl
  | cons u us ih =>
    simp only [Runtime.applyRefs]
    repeat' split
    all_goals first | exact ih _ | (unfold Late; simp; done)

theorem applyAllUnits_late {w : World} {m : Meta} (s : State) : Late (Runtime.applyAllUnits w m s).2 := by
  unfold Runtime.applyAllUnits
  simp only
  split
  · exact applyUnits_late ..
  · split
    · unfold Late; simp
    · split
      · unfold Late; simp
      · split
        · unfold Late; simp
        · exact applyRefs_late ..

theorem reaches_late {v : World} {x : Option (List Obj × Obj)} {m : Meta} {s s' : State} {a : Nat} (hx : x.isSome = true) (hr : reaches v m s = true)
    (h : Runtime.serve fuel s (.apply (worldOf v x) (.ok m)) = some (s', a)) : m.type ≠ 2 ∧ Late a := by
  simp only [Runtime.serve, Runtime.applyPatch, gate_worldOf, Option.some.injEq, Prod.mk.injEq] at h
  obtain ⟨-, h⟩ := h
  unfold reaches at hr
  simp only [Bool.and_eq_true, Option.isNone_iff_eq_none, bne_iff_ne, ne_eq, beq_iff_eq] at hr
  obtain ⟨⟨h1, h2⟩, h3⟩ := hr
  refine ⟨h2, ?_⟩
  cases hg : Runtime.gate v s with
  | mk s1 e =>
    rw [hg] at h h1 h3
    have h1 : e = none := h1
    subst h1
    subst h
    have h3 : Runtime.sanity v m s1 = 0 := h3
    obtain ⟨p, rfl⟩ := Option.isSome_iff_exists.mp hx
    have e1 : (if m.type = 2 then 0 else Runtime.sanity (worldOf v (some p)) m s1) = 0 := by rw [if_neg h2, sanity_worldOf, h3]
    simp only [Runtime.loadPatch, e1]
    rw [if_neg (by simp), if_neg (by simp [worldOf])]
    rw [if_neg h2]
    split
    · split
      · unfold Late; simp
      · split
        · exact applyAllUnits_late ..
        · exact .inl rfl
    · split
      · unfold Late; simp
      · unfold Late; simp

end

end Verif.Loader
