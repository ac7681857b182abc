import Verif.Records.Spec
import Verif.Heap.Lemmas

namespace Verif.Records

open Verif.Heap (Heap Blk)

/-- Code that owns the blocks `P` never fails, whatever else is allocated, and ends with the blocks of `Q`. -/
def Owns {α} (P : List Blk) (m : H α) (Q : α → List Blk → Prop) : Prop :=
  ∀ h rest, h.Wf → h.live.Perm (P ++ rest) →
    ∃ a h' R, m h = some (a, h') ∧ h'.Wf ∧ h'.live.Perm (R ++ rest) ∧ Q a R

theorem Owns.pure {α} {P : List Blk} {a : α} {Q : α → List Blk → Prop} (h : Q a P) : Owns P (pure a : H α) Q :=
  fun hp _ hw hp' => ⟨a, hp, P, rfl, hw, hp', h⟩

theorem bind_run {α β} {m : H α} {f : α → H β} {h h' : Heap} {a : α} (e : m h = some (a, h')) : (m >>= f) h = f a h' := by
  show Option.bind (m h) _ = _
  rw [e]; rfl

theorem Owns.bind {α β} {P : List Blk} {m : H α} {f : α → H β} {Q : α → List Blk → Prop} {R : β → List Blk → Prop}
    (h1 : Owns P m Q) (h2 : ∀ a S, Q a S → Owns S (f a) R) : Owns P (m >>= f) R := by
  intro h rest hw hp
  obtain ⟨a, h', S, e, hw', hp', hq⟩ := h1 h rest hw hp
  obtain ⟨b, h'', T, e', hw'', hp'', hr⟩ := h2 a S hq h' rest hw' hp'
  exact ⟨b, h'', T, by rw [bind_run e, e'], hw'', hp'', hr⟩

theorem Owns.weaken {α} {P P' : List Blk} {m : H α} {Q Q' : α → List Blk → Prop} (h : Owns P' m Q')
    (hp : P.Perm P') (hq : ∀ a R, Q' a R → Q a R) : Owns P m Q := by
  intro hh rest hw hl
  obtain ⟨a, h', R, e, hw', hp', hr⟩ := h hh rest hw (hl.trans (hp.append_right rest))
  exact ⟨a, h', R, e, hw', hp', hq a R hr⟩

/-- What is not used stays. -/
theorem Owns.frame {α} {P F : List Blk} {m : H α} {Q : α → List Blk → Prop} (h : Owns P m Q) :
    Owns (P ++ F) m (fun a R => ∃ S, R = S ++ F ∧ Q a S) := by
  intro hh rest hw hl
  obtain ⟨a, h', R, e, hw', hp', hr⟩ := h hh (F ++ rest) hw (by simpa using hl)
  exact ⟨a, h', R ++ F, e, hw', by simpa using hp', R, rfl, hr⟩

theorem Owns.alloc {P : List Blk} : Owns P alloc (fun b R => R = b :: P) := by
  intro h rest hw hp
  refine ⟨h.next, ⟨h.next :: h.live, h.next + 1⟩, h.next :: P, rfl, ⟨?_, ?_⟩, ?_, rfl⟩
  · exact List.nodup_cons.2 ⟨fun hm => Nat.lt_irrefl _ (hw.2 _ hm), hw.1⟩
  · intro b hb
    simp at hb
    rcases hb with rfl | hb
    · exact Nat.lt_succ_self _
    · exact Nat.lt_succ_of_lt (hw.2 b hb)
  · exact List.Perm.cons _ hp

theorem Owns.free {P : List Blk} {b : Blk} : Owns (b :: P) (free b) (fun _ R => R = P) := by
  intro h rest hw hp
  have hb : b ∈ h.live := hp.symm.subset (by simp)
  have e : h.free b = some { h with live := h.live.erase b } := by unfold Heap.free; rw [if_pos hb]
  refine ⟨(), { h with live := h.live.erase b }, P, by simp only [Records.free, e], ⟨hw.1.erase b, ?_⟩, ?_, rfl⟩
  · exact fun c hc => hw.2 c (List.mem_of_mem_erase hc)
  · simpa using hp.erase b

theorem Owns.touch {P : List Blk} {b : Blk} (h : b ∈ P) : Owns P (touch b) (fun _ R => R = P) := by
  intro hh rest hw hp
  have hb : b ∈ hh.live := hp.symm.subset (by simp [h])
  exact ⟨(), hh, P, by simp only [Records.touch, if_pos hb], hw, hp, rfl⟩

/-! ### Reading -/

theorem Owns.grow {P : List Blk} (n : Nat) (b : Blk) : Owns (b :: P) (grow n b) (fun c R => R = c :: P) := by
  induction n generalizing b with
  | zero => exact .pure rfl
  | succ n ih =>
    refine .bind .free ?_
    rintro _ S rfl
    refine .bind .alloc ?_
    rintro c S rfl
    exact ih c

theorem Owns.readString {P : List Blk} (t : Text) :
    Owns P (readString t) (fun r R => R = r.toList ++ P ∧ r.isSome = t.ok) := by
  refine .bind .alloc ?_
  rintro b S rfl
  refine .bind (.grow _ _) ?_
  rintro c S rfl
  split
  · next h => exact .pure ⟨rfl, by simp [h]⟩
  · next h =>
    refine .bind .free ?_
    rintro _ S rfl
    exact .pure ⟨rfl, by simpa using h⟩

theorem Owns.lookup {P : List Blk} (ts : List Text) : Owns P (lookup ts) (fun _ R => R = P) := by
  induction ts with
  | nil => exact .pure rfl
  | cons t ts ih =>
    refine .bind (.readString t) ?_
    rintro r S ⟨rfl, _⟩
    cases r with
    | none => exact .pure rfl
    | some b =>
      refine .bind .free ?_
      rintro _ S rfl
      exact ih

theorem Owns.lookups {P : List Blk} (ls : List (List Text)) : Owns P (lookups ls) (fun _ R => R = P) := by
  induction ls with
  | nil => exact .pure rfl
  | cons l ls ih =>
    refine .bind (.lookup l) ?_
    rintro _ S rfl
    exact ih

/-! ### Records -/

/-- Blocks of objects. -/
def objBlocks (os : List Obj) : List Blk := os.flatMap fun o => [o.filename, o.self]

def resBlocks (rs : List Result) : List Blk := rs.flatMap fun o => [o.name, o.self]

/-- All blocks of a record. -/
def Rec.blocks (r : Rec) : List Blk :=
  r.threads.map (·.self) ++ (objBlocks r.main.toList ++ (objBlocks r.targets ++ (resBlocks r.results ++ [r.self])))

theorem Owns.releaseObjs {P : List Blk} (os : List Obj) : Owns (objBlocks os ++ P) (releaseObjs os) (fun _ R => R = P) := by
  induction os with
  | nil => exact .pure rfl
  | cons o os ih =>
    refine .bind (.touch (by simp [objBlocks])) ?_
    rintro _ S rfl
    refine .bind (.free (P := o.self :: (objBlocks os ++ P))) ?_
    rintro _ S rfl
    refine .bind .free ?_
    rintro _ S rfl
    exact ih

theorem Owns.releaseResults {P : List Blk} (rs : List Result) : Owns (resBlocks rs ++ P) (releaseResults rs) (fun _ R => R = P) := by
  induction rs generalizing P with
  | nil => exact .pure rfl
  | cons r rs ih =>
    refine .bind ((ih (P := r.name :: r.self :: P)).weaken ?_ fun _ _ h => h) ?_
    · show (r.name :: r.self :: (resBlocks rs ++ P)).Perm _
      exact ((List.perm_middle (a := r.name) (l₁ := resBlocks rs) (l₂ := r.self :: P)).trans
        (List.perm_middle.cons _)).symm
    rintro _ S rfl
    refine .bind .free ?_
    rintro _ S rfl
    exact .free

theorem Owns.dropThreads {P : List Blk} (ts : List Thread) : Owns (ts.map (·.self) ++ P) (dropThreads ts) (fun _ R => R = P) := by
  induction ts with
  | nil => exact .pure rfl
  | cons t ts ih =>
    refine .bind (.touch (by simp)) ?_
    rintro _ S rfl
    refine .bind .free ?_
    rintro _ S rfl
    exact ih

theorem Owns.release {P : List Blk} (r : Rec) : Owns (r.blocks ++ P) (release r) (fun _ R => R = P) := by
  have e : r.blocks ++ P = r.threads.map (·.self) ++
    (objBlocks r.main.toList ++ (objBlocks r.targets ++ (resBlocks r.results ++ (r.self :: P)))) := by
    simp [Rec.blocks]
  rw [e]
  refine .bind (.dropThreads _) ?_
  rintro _ S rfl
  refine .bind (.releaseObjs _) ?_
  rintro _ S rfl
  refine .bind (.releaseObjs _) ?_
  rintro _ S rfl
  refine .bind (.releaseResults _) ?_
  rintro _ S rfl
  exact .free

def listBlocks (l : List Rec) : List Blk := l.flatMap Rec.blocks

theorem Owns.releaseAll {P : List Blk} (l : List Rec) : Owns (listBlocks l ++ P) (releaseAll l) (fun _ R => R = P) := by
  induction l with
  | nil => exact .pure rfl
  | cons r rs ih =>
    have e : listBlocks (r :: rs) ++ P = r.blocks ++ (listBlocks rs ++ P) := by simp [listBlocks]
    rw [e]
    refine .bind (.release r) ?_
    rintro _ S rfl
    exact ih

/-- A record outside of the critical section: what it points at belongs to it. -/
structure Rec.Idle (r : Rec) : Prop where
  threads : r.threads = []
  free : r.hijacked = false
  libpulp : ∀ p, r.libpulp = some p → p ∈ objBlocks r.targets

/-- A result with a record: its blocks, besides `n` that are lost. -/
def Kept (n : Nat) (pid : Nat) (r : Rec) (R : List Blk) : Prop :=
  r.Idle ∧ r.pid = pid ∧ ∃ lost : List Blk, R.Perm (r.blocks ++ lost) ∧ lost.length = n

theorem Owns.readLibs (ls : List Lib) (r : Rec) (hi : r.Idle) :
    Owns r.blocks (readLibs ls r) (Kept (ls.any fun l => !l.ok).toNat r.pid) := by
  induction ls generalizing r with
  | nil => exact .pure ⟨hi, rfl, [], by simp, by simp⟩
  | cons l ls ih =>
    cases l with
    | unreadable =>
      refine .bind .alloc ?_
      rintro b S rfl
      refine .pure ⟨hi, rfl, [b], ?_, by simp [Lib.ok]⟩
      exact (List.perm_append_singleton b r.blocks).symm
    | named t isPulp =>
      refine .bind .alloc ?_
      rintro b S rfl
      refine .bind (.readString t) ?_
      rintro n S ⟨rfl, hn⟩
      cases n with
      | none =>
        refine .pure ⟨hi, rfl, [b], ?_, ?_⟩
        · exact (List.perm_append_singleton b r.blocks).symm
        · have : t.ok = false := by simpa using hn.symm
          simp [Lib.ok, this]
      | some f =>
        refine .weaken (ih _ ?_) ?_ ?_
        · refine ⟨hi.threads, hi.free, fun p hp => ?_⟩
          simp only at hp
          split at hp
          · cases hp; simp [objBlocks]
          · have := hi.libpulp p hp
            simp only [objBlocks, List.flatMap_cons, List.mem_append] at this ⊢
            exact Or.inr this
        · show (f :: b :: r.blocks).Perm _
          simp only [Rec.blocks, hi.threads, List.map_nil, List.nil_append, objBlocks, List.flatMap_cons]
          show ([f, b] ++ (List.flatMap (fun o : Obj => [o.filename, o.self]) r.main.toList ++ _)).Perm _
          simp only [List.append_assoc]
          exact List.perm_append_comm_assoc ..
        · rintro r' R ⟨h1, h2, lost, h3, h4⟩
          have : t.ok = true := by simpa using hn.symm
          exact ⟨h1, h2, lost, h3, by rw [h4]; simp [Lib.ok, this]⟩

theorem Owns.parseMain (a : Answers) (b : Blk) (pid : Nat) :
    Owns [b] (parseMain a { self := b, pid := pid }) (fun p R => p.1 = (a.name && a.bias && a.linkMap) ∧
      Kept (a.name && !a.bias).toNat pid p.2 R) := by
  unfold Records.parseMain
  split
  · next hn =>
    refine .bind .alloc ?_
    rintro c S rfl
    refine .bind .alloc ?_
    rintro f S rfl
    refine .bind (Q := fun _ R => ∃ lost : List Blk, R = lost ++ [f, c, b] ∧ lost.length = (!a.bias).toNat) ?_ ?_
    · refine .bind .alloc ?_
      rintro g S rfl
      split
      · next hb =>
        refine .weaken .free (.refl _) ?_
        rintro _ R rfl
        exact ⟨[], rfl, by simp [hb]⟩
      · next hb => exact .pure ⟨[g], rfl, by simp [hb]⟩
    · rintro _ S ⟨lost, rfl, hl⟩
      have ep : (lost ++ [f, c, b]).Perm (({ self := b, pid := pid, main := some ⟨c, f⟩ } : Rec).blocks ++ lost) := by
        simpa [Rec.blocks, objBlocks, resBlocks] using List.perm_append_comm (l₁ := lost) (l₂ := [f, c, b])
      exact .pure ⟨by simp [hn], ⟨rfl, rfl, by simp⟩, rfl, lost, ep, by simp [hn, hl]⟩
  · next hn =>
    have hn : a.name = false := by simpa using hn
    refine .pure ⟨by simp [hn], ⟨rfl, rfl, by simp⟩, rfl, [], by simp [Rec.blocks, objBlocks, resBlocks], by simp [hn]⟩

theorem Owns.parseLibs {P : List Blk} (a : Answers) (r : Rec) (hi : r.Idle) (hp : P.Perm r.blocks) :
    Owns P (parseLibs a r) (fun p R => Kept (a.libs.any fun l => !l.ok).toNat r.pid p.2 R ∧
      (p.1 = true → ∃ q, p.2.libpulp = some q)) := by
  refine .bind ((Owns.readLibs a.libs r hi).weaken hp fun _ _ h => h) ?_
  rintro r' S hk
  obtain ⟨h1, h2, lost, h3, h4⟩ := id hk
  cases e : r'.libpulp with
  | none => exact .pure ⟨hk, by simp⟩
  | some q =>
    refine .bind (.touch ?_) ?_
    · exact h3.symm.subset (by simp [Rec.blocks, h1.libpulp q e])
    · rintro _ S rfl
      refine .bind (.lookups _) ?_
      rintro _ S rfl
      exact .pure ⟨hk, fun _ => ⟨q, e⟩⟩

theorem Owns.initData (a : Answers) (b : Blk) (pid : Nat) :
    Owns [b] (initData a { self := b, pid := pid }) (fun p R => Kept a.broken.toNat pid p.2 R) := by
  unfold Records.initData
  split
  · next ha =>
    refine .bind (.parseMain a b pid) ?_
    rintro ⟨ok, r⟩ S ⟨hok, hk⟩
    dsimp only at hok hk ⊢
    split
    · next hok' =>
      rw [hok'] at hok
      simp only [Bool.true_eq, Bool.and_eq_true] at hok
      obtain ⟨h1, h2, lost, h3, h4⟩ := hk
      rw [hok.1.2] at h4
      have : lost = [] := by simpa using h4
      subst this
      refine .bind (.parseLibs a r h1 (by simpa using h3)) ?_
      rintro ⟨ok', r'⟩ S ⟨hk', hq⟩
      have hk'' : Kept a.broken.toNat pid r' S := by
        simp only [h2] at hk'
        simpa [Answers.broken, ha, hok] using hk'
      dsimp only at hq ⊢
      split
      · next hok' =>
        obtain ⟨q, e⟩ := hq hok'
        rw [e]
        refine .bind (.touch ?_) ?_
        · obtain ⟨h1, _, lost, h3, _⟩ := hk''
          exact h3.symm.subset (by simp [Rec.blocks, h1.libpulp q e])
        · rintro _ S rfl
          exact .pure hk''
      · exact .pure hk''
    · next hok' =>
      have hok : (a.name && a.bias && a.linkMap) = false := by rw [← hok]; simpa using hok'
      have : a.broken = (a.name && !a.bias) := by
        unfold Answers.broken
        cases h1 : a.name <;> cases h2 : a.bias <;> cases h3 : a.linkMap <;> simp_all
      rw [this]
      exact .pure hk
  · next ha =>
    have ha : a.attached = false := by simpa using ha
    exact .pure ⟨⟨rfl, rfl, by simp⟩, rfl, [], by simp [Rec.blocks, objBlocks, resBlocks], by simp [Answers.broken, ha]⟩

/-! ### Threads -/

/-- Blocks of a record besides its threads. -/
def Rec.others (r : Rec) : List Blk := objBlocks r.main.toList ++ (objBlocks r.targets ++ (resBlocks r.results ++ [r.self]))

theorem blocks_eq (r : Rec) : r.blocks = r.threads.map (·.self) ++ r.others := rfl

/-- The same but for the threads. -/
structure Same (r r' : Rec) : Prop where
  others : r'.others = r.others
  targets : r'.targets = r.targets
  libpulp : r'.libpulp = r.libpulp
  pid : r'.pid = r.pid

theorem Same.refl (r : Rec) : Same r r := ⟨rfl, rfl, rfl, rfl⟩
theorem Same.trans {a b c : Rec} (h : Same a b) (g : Same b c) : Same a c :=
  ⟨g.others.trans h.others, g.targets.trans h.targets, g.libpulp.trans h.libpulp, g.pid.trans h.pid⟩

theorem Owns.hijackLoop (es : List Entry) (r : Rec) (hf : r.hijacked = false) 
    (hm : (∃ t ∈ r.threads, t.tid = r.pid) → ∃ t ∈ r.threads, r.mainThread = some t.self) :
    Owns r.blocks (hijackLoop es r) (fun p R => R = p.2.blocks ∧ Same r p.2 ∧
      (p.1 = false → p.2.threads = [] ∧ p.2.hijacked = false) ∧
      (p.1 = true → ((∃ t ∈ r.threads, t.tid = r.pid) ∨ Lists r.pid es) → ∃ t ∈ p.2.threads, p.2.mainThread = some t.self)) := by
  induction es generalizing r with
  | nil =>
    refine .pure ⟨rfl, ⟨rfl, rfl, rfl, rfl⟩, by simp, fun _ h => ?_⟩
    rcases h with h | h
    · exact hm h
    · obtain ⟨_, _, _, h⟩ := h; simp at h
  | cons e es ih =>
    cases e with
    | error =>
      refine .bind (.dropThreads (P := r.others) _) ?_
      rintro _ S rfl
      exact .pure ⟨rfl, ⟨rfl, rfl, rfl, rfl⟩, fun _ => ⟨rfl, hf⟩, by simp⟩
    | thread tid attach regs =>
      unfold Records.hijackLoop
      split
      · next hc =>
        refine (ih r hf hm).weaken (.refl _) ?_
        rintro p R ⟨h1, h2, h3, h4⟩
        refine ⟨h1, h2, h3, fun hp hl => h4 hp ?_⟩
        rcases hl with hl | ⟨h0, at', rg, hl⟩
        · exact Or.inl hl
        · simp only [List.mem_cons, Entry.thread.injEq] at hl
          rcases hl with ⟨hl, _⟩ | hl
          · rcases hc with hc | hc
            · exact absurd (hl.trans hc) h0
            · simp only [List.any_eq_true, decide_eq_true_eq] at hc
              obtain ⟨t, ht, e⟩ := hc
              exact Or.inl ⟨t, ht, e.trans hl.symm⟩
          · exact Or.inr ⟨h0, at', rg, hl⟩
      · next hc =>
        refine .bind .alloc ?_
        rintro b S rfl
        split
        · let r' : Rec := { r with threads := ⟨b, tid⟩ :: r.threads, mainThread := if tid = r.pid then some b else r.mainThread }
          have hm' : (∃ t ∈ r'.threads, t.tid = r'.pid) → ∃ t ∈ r'.threads, r'.mainThread = some t.self := by
            rintro ⟨t, ht, e⟩
            by_cases htid : tid = r.pid
            · exact ⟨⟨b, tid⟩, List.mem_cons_self .., by simp [r', htid]⟩
            · rcases List.mem_cons.1 ht with rfl | ht
              · exact absurd e htid
              · obtain ⟨t', ht', e'⟩ := hm ⟨t, ht, e⟩
                exact ⟨t', List.mem_cons_of_mem _ ht', by simp [r', htid, e']⟩
          refine (ih r' hf hm').weaken (.refl _) ?_
          rintro p R ⟨h1, h2, h3, h4⟩
          refine ⟨h1, Same.trans (b := r') ⟨rfl, rfl, rfl, rfl⟩ h2, h3, fun hp hl => h4 hp ?_⟩
          rcases hl with ⟨t, ht, e⟩ | ⟨h0, at', rg, hl⟩
          · exact Or.inl ⟨t, List.mem_cons_of_mem _ ht, e⟩
          · simp only [List.mem_cons, Entry.thread.injEq] at hl
            rcases hl with ⟨hl, _⟩ | hl
            · exact Or.inl ⟨⟨b, tid⟩, List.mem_cons_self .., hl.symm⟩
            · exact Or.inr ⟨h0, at', rg, hl⟩
        · refine .bind .free ?_
          rintro _ S rfl
          refine .bind (.dropThreads (P := r.others) _) ?_
          rintro _ S rfl
          exact .pure ⟨rfl, ⟨rfl, rfl, rfl, rfl⟩, fun _ => ⟨rfl, hf⟩, by simp⟩

theorem Owns.useMain {P : List Blk} (r : Rec) (b : Blk) (hb : r.mainThread = some b) (hm : b ∈ P) (n : Nat) :
    Owns P (useMain r n) (fun _ R => R = P) := by
  induction n with
  | zero => exact .pure rfl
  | succ n ih =>
    unfold Records.useMain
    rw [hb]
    refine .bind (.touch hm) ?_
    rintro _ S rfl
    exact ih

theorem Same.idle {r r' : Rec} (h : Same r r') (hi : r.Idle) (ht : r'.threads = []) (hf : r'.hijacked = false) : r'.Idle :=
  ⟨ht, hf, fun p hp => by rw [h.targets]; exact hi.libpulp p (by rw [← h.libpulp]; exact hp)⟩

theorem Owns.use (u : Use) (r : Rec) (hi : r.Idle) (hu : u.Fits r.pid) :
    Owns r.blocks (use u r) (fun r' R => R.Perm r'.blocks ∧ r'.Idle ∧ r'.pid = r.pid) := by
  cases u with
  | attempt opened es n =>
    unfold Records.use
    refine .bind (Q := fun p R => R = p.2.blocks ∧ Same r p.2 ∧
      (p.1 = false → p.2.threads = [] ∧ p.2.hijacked = false) ∧
      (p.1 = true → ∃ t ∈ p.2.threads, p.2.mainThread = some t.self)) ?_ ?_
    · unfold Records.hijack
      split
      · exact .pure ⟨rfl, Same.refl r, fun _ => ⟨hi.threads, hi.free⟩, by simp⟩
      · refine (Owns.hijackLoop es r hi.free (by simp [hi.threads])).weaken (.refl _) ?_
        rintro p R ⟨h1, h2, h3, h4⟩
        exact ⟨h1, h2, h3, fun hp => h4 hp (Or.inr hu)⟩
    · rintro ⟨ok, r'⟩ S ⟨rfl, hs, h3, h4⟩
      dsimp only at hs h3 h4 ⊢
      split
      · next hok =>
        obtain ⟨t, ht, e⟩ := h4 hok
        refine .bind (.useMain r' t.self e ?_ n) ?_
        · simp only [blocks_eq, List.mem_append, List.mem_map]
          exact Or.inl ⟨t, ht, rfl⟩
        · rintro _ S rfl
          refine .bind (.dropThreads (P := r'.others) _) ?_
          rintro _ S rfl
          exact .pure ⟨.refl _, Same.idle (r' := { r' with threads := [], hijacked := false }) ⟨hs.others, hs.targets, hs.libpulp, hs.pid⟩ hi rfl rfl, hs.pid⟩
      · next hok =>
        have := h3 (by simpa using hok)
        exact .pure ⟨.refl _, hs.idle hi this.1 this.2, hs.pid⟩
  | note =>
    refine .bind .alloc ?_
    rintro b S rfl
    refine .bind .alloc ?_
    rintro c S rfl
    refine .pure ⟨?_, ⟨hi.threads, hi.free, hi.libpulp⟩, rfl⟩
    simp only [Rec.blocks, hi.threads, List.map_nil, List.nil_append, resBlocks, List.flatMap_cons]
    show ([c, b] ++ (objBlocks r.main.toList ++ (objBlocks r.targets ++ _))).Perm _
    simp only [List.append_assoc]
    refine (List.perm_append_comm_assoc ..).trans ?_
    exact List.Perm.append_left _ (List.perm_append_comm_assoc ..)

/-! ### Listing -/

theorem Owns.insert {P : List Blk} (pid : Nat) (a : Answers) (l : List Rec) (hl : ∀ r ∈ l, r.Idle) :
    Owns (listBlocks l ++ P) (insert pid a l) (fun l' R => (∀ r ∈ l', r.Idle) ∧
      ∃ lost : List Blk, R.Perm (listBlocks l' ++ (lost ++ P)) ∧ lost.length = a.broken.toNat) := by
  refine .bind .alloc ?_
  rintro b S rfl
  refine .bind (Owns.frame (P := [b]) (F := listBlocks l ++ P) (.initData a b pid)) ?_
  rintro ⟨ok, r⟩ S ⟨S, rfl, hk⟩
  dsimp only at hk ⊢
  obtain ⟨h1, _, lost, h3, h4⟩ := hk
  have hp : (S ++ (listBlocks l ++ P)).Perm (r.blocks ++ (listBlocks l ++ (lost ++ P))) := by
    refine (h3.append_right _).trans ?_
    rw [List.append_assoc]
    exact List.Perm.append_left _ (List.perm_append_comm_assoc ..)
  split
  · refine .pure ⟨?_, lost, ?_, h4⟩
    · intro r' hr
      rcases List.mem_cons.1 hr with rfl | hr
      · exact h1
      · exact hl r' hr
    · simpa [listBlocks] using hp
  · refine .bind ((Owns.release (P := listBlocks l ++ (lost ++ P)) r).weaken hp fun _ _ h => h) ?_
    rintro _ T rfl
    exact .pure ⟨hl, lost, .refl _, h4⟩

theorem Owns.useAt {P : List Blk} (u : Use) (pid : Nat) (hu : u.Fits pid) (l : List Rec) (hl : ∀ r ∈ l, r.Idle) :
    Owns (listBlocks l ++ P) (useAt u pid l) (fun l' R => (∀ r ∈ l', r.Idle) ∧ R.Perm (listBlocks l' ++ P)) := by
  induction l generalizing P with
  | nil => exact .pure ⟨by simp, .refl _⟩
  | cons r rs ih =>
    unfold Records.useAt
    split
    · next hp =>
      have e : listBlocks (r :: rs) ++ P = r.blocks ++ (listBlocks rs ++ P) := by simp [listBlocks]
      rw [e]
      refine .bind (Owns.frame (.use u r (hl r (by simp)) (by rw [hp]; exact hu))) ?_
      rintro r' S ⟨S, rfl, h1, h2, _⟩
      refine .pure ⟨?_, ?_⟩
      · intro x hx
        rcases List.mem_cons.1 hx with rfl | hx
        · exact h2
        · exact hl x (List.mem_cons_of_mem _ hx)
      · have := h1.append_right (listBlocks rs ++ P)
        simpa [listBlocks] using this
    · have e : (listBlocks (r :: rs) ++ P).Perm (listBlocks rs ++ (r.blocks ++ P)) := by
        simp only [listBlocks, List.flatMap_cons, List.append_assoc]
        exact List.perm_append_comm_assoc ..
      refine .bind ((ih (P := r.blocks ++ P) fun x hx => hl x (List.mem_cons_of_mem _ hx)).weaken e fun _ _ h => h) ?_
      rintro rs' S ⟨h1, h2⟩
      refine .pure ⟨?_, ?_⟩
      · intro x hx
        rcases List.mem_cons.1 hx with rfl | hx
        · exact hl _ (by simp)
        · exact h1 x hx
      · refine h2.trans ?_
        simp only [listBlocks, List.flatMap_cons, List.append_assoc]
        exact List.perm_append_comm_assoc ..

theorem Owns.events {P : List Blk} (es : List Ev) (hf : Fits es) (l : List Rec) (hl : ∀ r ∈ l, r.Idle) :
    Owns (listBlocks l ++ P) (events es l) (fun l' R => (∀ r ∈ l', r.Idle) ∧
      ∃ lost : List Blk, R.Perm (listBlocks l' ++ (lost ++ P)) ∧ lost.length = broken es) := by
  induction es generalizing P l with
  | nil => exact .pure ⟨hl, [], by simp, rfl⟩
  | cons e es ih =>
    have hf' : Fits es := fun pid u h => hf pid u (List.mem_cons_of_mem _ h)
    cases e with
    | insert pid a =>
      refine .bind (.insert pid a l hl) ?_
      rintro l' S ⟨h1, lost, h2, h3⟩
      refine (ih (P := lost ++ P) hf' l' h1).weaken h2 ?_
      rintro l'' R ⟨k1, lost', k2, k3⟩
      refine ⟨k1, lost' ++ lost, by simpa using k2, ?_⟩
      simp [broken]; omega
    | use pid u =>
      refine .bind (.useAt u pid (hf pid u (by simp)) l hl) ?_
      rintro l' S ⟨h1, h2⟩
      refine (ih (P := P) hf' l' h1).weaken h2 ?_
      exact fun _ _ h => h

theorem Owns.uses (us : List Use) (r : Rec) (hi : r.Idle) (hu : ∀ u ∈ us, u.Fits r.pid) :
    Owns r.blocks (us.foldlM (fun r u => Records.use u r) r) (fun r' R => R.Perm r'.blocks) := by
  induction us generalizing r with
  | nil => exact .pure (.refl _)
  | cons u us ih =>
    rw [List.foldlM_cons]
    refine .bind (.use u r hi (hu u (by simp))) ?_
    rintro r' S ⟨h1, h2, h3⟩
    exact (ih r' h2 fun v hv => h3 ▸ hu v (List.mem_cons_of_mem _ hv)).weaken h1 fun _ _ h => h

theorem Owns.start {α} {m : H α} {Q : α → List Blk → Prop} (h : Owns [] m Q) (hp : Heap) (hw : hp.Wf) :
    ∃ a h' lost, m hp = some (a, h') ∧ Left hp h' lost ∧ h'.Wf ∧ Q a lost := by
  obtain ⟨a, h', R, e, hw', hp', hq⟩ := h hp hp.live hw (.refl _)
  exact ⟨a, h', R, e, hp', hw', hq⟩

end Verif.Records
