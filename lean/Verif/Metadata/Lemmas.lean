import Verif.Metadata.Spec

/-! Facts about the pieces of the parser. -/

namespace Verif.Metadata

open Spec

theorem bind_def {α β} (m : P α) (f : α → P β) (s : Src) (st : St) : (m >>= f) s st = (match m s st with
    | .ok (a, st) => f a s st
    | .err e => .err e
    | .ub => .ub) := rfl

theorem pure_def {α} (a : α) (s : Src) (st : St) : (pure a : P α) s st = .ok (a, st) := rfl

theorem readFromMem_eq (cap count : Nat) (s : Src) (st : St) (h : st.cur ≤ s.bytes.length) :
    readFromMem cap count s st =
      if cap < min count (s.bytes.length - st.cur) then .ub
      else .ok ((s.bytes.drop st.cur).take count, { st with cur := st.cur + min count (s.bytes.length - st.cur) }) := by
  unfold readFromMem
  simp only
  have e : (if (count : Int) > (s.bytes.length : Int) - st.cur then (s.bytes.length : Int) - st.cur else count) =
      ((min count (s.bytes.length - st.cur) : Nat) : Int) := by split <;> omega
  rw [e]
  by_cases hc : cap < min count (s.bytes.length - st.cur)
  · rw [if_pos (Or.inr (Or.inl (by omega))), if_pos hc]
  · rw [if_neg (by omega), if_neg hc, Int.toNat_natCast]
    congr 2
    rw [← List.length_drop, List.take_eq_take_min (i := count)]

/-! ### Reading what was written -/

/-- `m` reads exactly the bytes `bs` and returns `x`, whatever follows. -/
def Reads {α} (m : P α) (x : α) (bs : Bytes) : Prop :=
  ∀ s st t, st.cur ≤ s.bytes.length → (∀ a b, s.alloc a b = true) → s.bytes.drop st.cur = bs ++ t →
    ∃ c, m s st = .ok (x, ⟨st.cur + bs.length, c⟩)

theorem Reads.bind {α β} {m : P α} {f : α → P β} {x y b₁ b₂} (h₁ : Reads m x b₁) (h₂ : Reads (f x) y b₂) :
    Reads (m >>= f) y (b₁ ++ b₂) := by
  intro s st t hc ha hd
  obtain ⟨c, h⟩ := h₁ s st (b₂ ++ t) hc ha (by rw [hd, List.append_assoc])
  have hlen := congrArg List.length hd
  simp at hlen
  have hd2 : s.bytes.drop (st.cur + b₁.length) = b₂ ++ t := by
    rw [← List.drop_drop, hd, List.append_assoc, List.drop_left]
  obtain ⟨c', h'⟩ := h₂ s ⟨st.cur + b₁.length, c⟩ t (by show _ ≤ _; simp only; omega) ha hd2
  refine ⟨c', ?_⟩
  rw [bind_def, h]
  simp only
  rw [h']
  simp [Nat.add_assoc]

theorem Reads.pure {α} (x : α) : Reads (pure x : P α) x [] := by
  intro s st t _ _ _
  exact ⟨st.c, rfl⟩

theorem Reads.seq0 {α β} {m : P α} {f : α → P β} {x y b} (h₁ : Reads m x []) (h₂ : Reads (f x) y b) :
    Reads (m >>= f) y b := h₁.bind h₂

theorem Reads.bind0 {α β} {m : P α} {f : α → P β} {x y b} (h₁ : Reads m x b) (h₂ : Reads (f x) y []) :
    Reads (m >>= f) y b := by
  have := h₁.bind h₂
  rwa [List.append_nil] at this

theorem Reads.bind_pure {α β} {m : P α} {f : α → β} {x b} (h₁ : Reads m x b) :
    Reads (m >>= fun a => (Pure.pure (f a) : P β)) (f x) b := by
  have := h₁.bind (f := fun a => (Pure.pure (f a) : P β)) (Reads.pure (f x))
  rwa [List.append_nil] at this

theorem Reads.calloc (n e) : Reads (calloc n e) () [] := by
  intro s st t _ ha _
  refine ⟨st.c, ?_⟩
  unfold Metadata.calloc
  rw [if_pos (ha _ _)]
  rfl

theorem Reads.readFromMem {cap count : Nat} {bs : Bytes} (hl : bs.length = count) (hc : count ≤ cap) :
    Reads (readFromMem cap count) bs bs := by
  intro s st t hcur _ hd
  have hlen := congrArg List.length hd
  simp at hlen
  refine ⟨st.c, ?_⟩
  rw [readFromMem_eq _ _ _ _ hcur, if_neg (by omega), hd, ← hl, List.take_left,
    Nat.min_eq_left (by omega)]

theorem Reads.readField {old bs : Bytes} {need e} (hl : bs.length = old.length) (hn : need ≤ old.length) :
    Reads (readField old need e) bs bs := by
  unfold Metadata.readField
  have := (Reads.readFromMem hl (Nat.le_refl _)).bind (f := fun got =>
    if got.length < need then fail e else (Pure.pure (got ++ old.drop got.length) : P Bytes)) (y := bs) (b₂ := [])
    (by
      rw [if_neg (by omega), hl, List.drop_length, List.append_nil]
      exact Reads.pure bs)
  rwa [List.append_nil] at this

theorem Reads.readC {need v : Nat} (hv : v < 2 ^ 32) (hn : need ≤ 4) : Reads (readC need) v (le 4 v) := by
  unfold Metadata.readC
  have h1 := Reads.readFromMem (cap := 4) (count := 4) (bs := le 4 v) (by simp) (by omega)
  refine h1.bind0 ?_
  intro s st t _ _ _
  refine ⟨le 4 v, ?_⟩
  rw [bind_def]
  simp only [setC, le_length, Nat.sub_self, List.take_zero, List.append_nil]
  rw [if_neg (by omega), leVal_le_of_lt (by omega)]
  rfl

theorem Reads.readStr {bs : Bytes} (hb : bs.length < 2 ^ 32 - 1) : Reads (readStr bs.length) (bs ++ [0]) bs := by
  unfold Metadata.readStr
  refine (Reads.calloc _ _).seq0 ?_
  refine (Reads.readFromMem (bs := bs) (cap := (bs.length + 1) % 2 ^ 32) rfl (by rw [Nat.mod_eq_of_lt (by omega)]; omega)).bind0 ?_
  rw [if_neg (by omega)]
  exact Reads.pure _

theorem Reads.readBuf {bs : Bytes} {e} : Reads (readBuf bs.length e) bs bs := by
  unfold Metadata.readBuf
  refine (Reads.calloc _ _).seq0 ?_
  refine (Reads.readFromMem (bs := bs) rfl (Nat.le_refl _)).bind0 ?_
  rw [if_neg (by omega)]
  exact Reads.pure _

theorem Reads.times {α β} {p : P α} {f : β → α} {g : β → Bytes} (l : List β) (h : ∀ b ∈ l, Reads p (f b) (g b)) :
    Reads (times l.length p) (l.map f) (l.flatMap g) := by
  induction l with
  | nil => exact Reads.pure _
  | cons b l ih =>
    rw [List.length_cons, Metadata.times, List.flatMap_cons, List.map_cons]
    refine (h b (List.mem_cons_self ..)).bind ?_
    exact (ih (fun b hb => h b (List.mem_cons_of_mem _ hb))).bind_pure

/-- A name packed by the packer. -/
theorem Reads.packStr {need} {s : Str} (h : GoodStr s) (hn : need ≤ 4) {β} {f : Bytes → P β} {y b}
    (hf : Reads (f (s ++ [0] ++ [0])) y b) :
    Reads (do let c ← Metadata.readC need; let x ← Metadata.readStr c; f x) y (Metadata.packStr s ++ b) := by
  unfold Metadata.packStr
  rw [List.append_assoc]
  refine (Reads.readC (by have := h.2; omega) hn).bind ?_
  have := Reads.readStr (bs := s ++ [0]) (by have := h.2; simp; omega)
  rw [List.length_append, List.length_singleton] at this
  exact this.bind hf

theorem Reads.packStrBuf {need e} {s : Str} (h : GoodStr s) (hn : need ≤ 4) {β} {f : Bytes → P β} {y b}
    (hf : Reads (f (s ++ [0])) y b) :
    Reads (do let c ← Metadata.readC need; let x ← Metadata.readBuf c e; f x) y (Metadata.packStr s ++ b) := by
  unfold Metadata.packStr
  rw [List.append_assoc]
  refine (Reads.readC (by have := h.2; omega) hn).bind ?_
  have := Reads.readBuf (bs := s ++ [0]) (e := e)
  rw [List.length_append, List.length_singleton] at this
  exact this.bind hf

/-- What a packed unit is parsed to. -/
def unitOf (u : Unit') : PUnit := ⟨u.oldFname ++ [0] ++ [0], u.newFname ++ [0] ++ [0], u.oldFaddr⟩

theorem Reads.unit {u : Unit'} (h : GoodStr u.oldFname ∧ GoodStr u.newFname ∧ u.oldFaddr < 2 ^ 64) :
    Reads readUnit (unitOf u) (packUnit u) := by
  unfold readUnit packUnit
  rw [List.append_assoc]
  refine (Reads.calloc _ _).seq0 ?_
  refine Reads.packStr h.1 (by omega) ?_
  refine Reads.packStr h.2.1 (by omega) ?_
  have := (Reads.readField (old := [0, 0, 0, 0, 0, 0, 0, 0]) (need := 1) (e := EINVALIDULP) (bs := le 8 u.oldFaddr)
    (by simp) (by simp)).bind_pure (f := fun addr => (⟨u.oldFname ++ [0] ++ [0], u.newFname ++ [0] ++ [0], leVal addr⟩ : PUnit))
  rw [leVal_le_of_lt (by have := h.2.2; omega)] at this
  exact this

theorem Reads.dep {d : Bytes} (h : d.length = 32) : Reads readDep d (id d) := by
  unfold readDep
  refine (Reads.calloc _ _).seq0 ?_
  exact Reads.readField (by simp [h]) (by simp)

/-- What a packed reference is parsed to. -/
def refOf (r : Ref) : PRef :=
  ⟨r.targetName ++ [0], r.referenceName ++ [0], r.targetOffset, r.patchOffset, if r.tls then 1 else 0⟩

theorem Reads.ref {r : Ref} (h : GoodStr r.targetName ∧ GoodStr r.referenceName ∧
    r.targetOffset < 2 ^ 64 ∧ r.patchOffset < 2 ^ 64) : Reads readRef (refOf r) (packRef r) := by
  unfold readRef packRef
  simp only [List.append_assoc]
  refine (Reads.calloc _ _).seq0 ?_
  refine Reads.packStrBuf h.1 (by omega) ?_
  refine Reads.packStrBuf h.2.1 (by omega) ?_
  refine (Reads.readField (old := [0, 0, 0, 0, 0, 0, 0, 0]) (bs := le 8 r.targetOffset) (by simp) (by simp)).bind ?_
  refine (Reads.readField (old := [0, 0, 0, 0, 0, 0, 0, 0]) (bs := le 8 r.patchOffset) (by simp) (by simp)).bind ?_
  have := (Reads.readField (old := [0]) (need := 1) (e := EINVALIDULP) (bs := [if r.tls then 1 else 0])
    (by simp) (by simp)).bind_pure (f := fun tls => (⟨r.targetName ++ [0], r.referenceName ++ [0],
      leVal (le 8 r.targetOffset), leVal (le 8 r.patchOffset), tls.headD 0⟩ : PRef))
  rw [leVal_le_of_lt (by have := h.2.2.1; omega), leVal_le_of_lt (by have := h.2.2.2; omega)] at this
  rw [leVal_le_of_lt (by have := h.2.2.1; omega), leVal_le_of_lt (by have := h.2.2.2; omega)]
  exact this

theorem Reads.body {p : Patch} (h : Good p) :
    Reads readBody (p.units.map unitOf, p.deps.map id, p.refs.map refOf)
      (le 4 p.units.length ++ p.units.flatMap packUnit ++ le 4 p.deps.length ++ p.deps.flatMap id ++
        le 4 p.refs.length ++ p.refs.flatMap packRef) := by
  unfold readBody
  simp only [List.append_assoc]
  refine (Reads.readField (old := [0, 0, 0, 0]) (bs := le 4 p.units.length) (by simp) (by simp)).bind ?_
  rw [leVal_le_of_lt (by have := h.nunits; omega)]
  refine (Reads.times (f := unitOf) p.units (fun u hu => Reads.unit (h.units u hu))).bind ?_
  refine (Reads.readC h.ndeps (by omega)).bind ?_
  refine (Reads.times (f := id) p.deps (fun d hd => Reads.dep (h.deps d hd))).bind ?_
  refine (Reads.readField (old := [0, 0, 0, 0]) (bs := le 4 p.refs.length) (by simp) (by simp)).bind ?_
  rw [leVal_le_of_lt (by have := h.nrefs; omega)]
  exact (Reads.times (f := refOf) p.refs (fun r hr => Reads.ref (h.refs r hr))).bind_pure
    (f := fun refs => (p.units.map unitOf, p.deps.map id, refs))

/-- The header, for a name of bytes `nm`. -/
theorem Reads.header {t : UInt8} {id path buildId nm : Bytes} (hid : id.length = 32) (hp : GoodStr path) (hp0 : path ≠ [])
    (hb : buildId.length < 2 ^ 32) (hn : nm.length < 2 ^ 32 - 1) :
    Reads readHeader (t, id, path ++ [0] ++ [0], buildId, nm ++ [0])
      ([t] ++ id ++ Metadata.packStr path ++ packBuildId buildId ++ le 4 nm.length ++ nm) := by
  unfold readHeader packBuildId
  simp only [List.append_assoc]
  refine (Reads.readField (old := [0]) (bs := [t]) (by simp) (by simp)).bind ?_
  refine (Reads.readField (old := List.replicate 32 0) (bs := id) (by simp [hid]) (by simp)).bind ?_
  refine Reads.packStr hp (by omega) ?_
  rw [if_neg]
  · refine (Reads.calloc _ _).seq0 ?_
    refine (Reads.readC hb (by omega)).bind ?_
    refine (Reads.readBuf (bs := buildId)).bind ?_
    refine (Reads.readC (by omega) (by omega)).bind ?_
    have := (Reads.readStr (bs := nm) hn).bind_pure (f := fun name => (([t] : Bytes).headD 0, id, path ++ [0] ++ [0], buildId, name))
    simp only [List.append_assoc] at this ⊢
    exact this
  · cases path with
    | nil => exact absurd rfl hp0
    | cons c cs =>
      intro hc
      simp at hc
      exact hp.1 (by simp [hc])

/-! ### Strings -/

theorem cstring_append {s : Str} (h : (0 : UInt8) ∉ s) (t : Bytes) : cstring (s ++ 0 :: t) = some s := by
  induction s with
  | nil => rfl
  | cons c s ih =>
    have hc : c ≠ 0 := by rintro rfl; exact h (List.mem_cons_self ..)
    rw [List.cons_append, cstring.eq_3 _ _ (by intro h'; exact hc h'), ih (fun h' => h (List.mem_cons_of_mem _ h'))]
    rfl

theorem all₂_map {α β} {R : α → β → Prop} (f : β → α) (l : List β) (h : ∀ b ∈ l, R (f b) b) : All₂ R (l.map f) l := by
  refine ⟨by simp, fun i h₁ h₂ => ?_⟩
  rw [List.getElem_map]
  exact h _ (List.getElem_mem _)

/-! ### Safety -/

/-- The parser piece keeps inside of the buffer, and never fails by undefined behaviour unless a full
length field of 0xFFFFFFFF is in the buffer. -/
def NoFF (s : Src) : Prop := ∀ i, (s.bytes.drop i).take 4 ≠ [255, 255, 255, 255]

def Safe {α} (m : P α) (Q : Src → α → St → Prop) : Prop :=
  ∀ s st, st.cur ≤ s.bytes.length → NoFF s → match m s st with
    | .ub => False
    | .err _ => True
    | .ok (a, st') => st.cur ≤ st'.cur ∧ st'.cur ≤ s.bytes.length ∧ Q s a st'

theorem Safe.bind {α β} {m : P α} {f : α → P β} {Q R} (h₁ : Safe m Q)
    (h₂ : ∀ a s st, st.cur ≤ s.bytes.length → NoFF s → Q s a st → match f a s st with
      | .ub => False
      | .err _ => True
      | .ok (b, st') => st.cur ≤ st'.cur ∧ st'.cur ≤ s.bytes.length ∧ R s b st') : Safe (m >>= f) R := by
  intro s st hc hf
  have := h₁ s st hc hf
  rw [bind_def]
  cases hm : m s st with
  | ub => rw [hm] at this; exact this
  | err e => trivial
  | ok r =>
    obtain ⟨a, st'⟩ := r
    rw [hm] at this
    simp only at this ⊢
    have h2 := h₂ a s st' this.2.1 hf this.2.2
    cases hfa : f a s st' with
    | ub => rw [hfa] at h2; exact h2
    | err e => trivial
    | ok r =>
      obtain ⟨b, st''⟩ := r
      rw [hfa] at h2
      simp only at h2 ⊢
      exact ⟨by omega, h2.2.1, h2.2.2⟩

theorem Safe.then {α β} {m : P α} {f : α → P β} {R} (h₁ : Safe m (fun _ _ _ => True)) (h₂ : ∀ a, Safe (f a) R) : Safe (m >>= f) R :=
  h₁.bind fun a s st hc hf _ => h₂ a s st hc hf

theorem Safe.pure {α} (x : α) : Safe (pure x : P α) (fun _ _ _ => True) := fun _ st h _ => ⟨Nat.le_refl st.cur, h, trivial⟩

theorem Safe.fail {α} (e : Err) {Q} : Safe (fail e : P α) Q := fun _ _ _ _ => trivial

theorem Safe.calloc (n e) : Safe (calloc n e) (fun _ _ _ => True) := by
  intro s st hc _
  unfold Metadata.calloc
  by_cases ha : s.alloc st.cur n = true
  · rw [if_pos ha]
    exact ⟨Nat.le_refl _, hc, trivial⟩
  · rw [if_neg ha]
    trivial

theorem Safe.readFromMem {cap count : Nat} (h : count ≤ cap) : Safe (readFromMem cap count) (fun _ _ _ => True) := by
  intro s st hc _
  rw [readFromMem_eq _ _ _ _ hc, if_neg (by omega)]
  exact ⟨by simp, by simp; omega, trivial⟩

theorem Safe.ite {α} {b : Prop} [Decidable b] {m n : P α} {Q} (h₁ : Safe m Q) (h₂ : Safe n Q) : Safe (if b then m else n) Q := by
  split
  · exact h₁
  · exact h₂

theorem Safe.readField (old need e) : Safe (readField old need e) (fun _ _ _ => True) :=
  (Safe.readFromMem (Nat.le_refl _)).then fun _ => Safe.ite (Safe.fail e) (Safe.pure _)

/-- A length that was read completely is not 0xFFFFFFFF; otherwise the buffer is exhausted. -/
def LenOk (s : Src) (c : Nat) (st : St) : Prop := c < 2 ^ 32 - 1 ∨ (c < 2 ^ 32 ∧ st.cur = s.bytes.length)

theorem leVal_lt_ff (bs : Bytes) (h : bs.length = 4) (hne : bs ≠ [255, 255, 255, 255]) : leVal bs < 2 ^ 32 - 1 := by
  have h1 := leVal_lt bs
  rw [h] at h1
  have : leVal bs ≠ 2 ^ 32 - 1 := by
    intro hc
    apply hne
    have h2 := le_leVal bs
    rw [h, hc] at h2
    rw [← h2]
    decide
  omega

theorem Safe.readC (need) : Safe (readC need) LenOk := by
  intro s st hc hf
  unfold Metadata.readC
  rw [bind_def, readFromMem_eq _ _ _ _ hc, if_neg (by omega)]
  simp only
  rw [bind_def]
  simp only [setC]
  by_cases hn : ((s.bytes.drop st.cur).take 4).length < need
  · rw [if_pos hn]
    trivial
  · rw [if_neg hn]
    refine ⟨by simp, by simp; omega, ?_⟩
    unfold LenOk
    by_cases h4 : 4 ≤ s.bytes.length - st.cur
    · left
      have hl : ((s.bytes.drop st.cur).take 4).length = 4 := by simp; omega
      rw [hl, Nat.sub_self, List.take_zero, List.append_nil]
      exact leVal_lt_ff _ hl (hf _)
    · right
      have hl : ((s.bytes.drop st.cur).take 4).length = s.bytes.length - st.cur := by simp; omega
      refine ⟨?_, by simp; omega⟩
      generalize hb : (s.bytes.drop st.cur).take 4 = g at *
      have := leVal_lt (g ++ (st.c.drop g.length).take (4 - g.length))
      have hle : (g ++ (st.c.drop g.length).take (4 - g.length)).length ≤ 4 := by
        rw [List.length_append, List.length_take]; omega
      have := Nat.pow_le_pow_right (n := 256) (by omega) hle
      omega

theorem Safe.readStr {β} (need) {f : Bytes → P β} {Q} (hf : ∀ x, Safe (f x) Q) :
    Safe (do let c ← Metadata.readC need; let x ← Metadata.readStr c; f x) Q := by
  refine (Safe.readC need).bind fun c s st hc hff hl => ?_
  have key : ∀ (m : P Bytes), m = Metadata.readStr c → (match (m >>= f) s st with
      | .ub => False
      | .err _ => True
      | .ok (b, st') => st.cur ≤ st'.cur ∧ st'.cur ≤ s.bytes.length ∧ Q s b st') := by
    rintro m rfl
    unfold Metadata.readStr
    rw [bind_def, bind_def]
    unfold Metadata.calloc
    by_cases ha : s.alloc st.cur ((c + 1) % 2 ^ 32) = true
    · rw [if_pos ha]
      simp only
      have hcap : ¬ ((c + 1) % 2 ^ 32 < min c (s.bytes.length - st.cur)) := by
        rcases hl with hl | ⟨_, hl⟩ <;> omega
      rw [bind_def, readFromMem_eq _ _ _ _ hc, if_neg hcap]
      simp only
      by_cases hn : ((s.bytes.drop st.cur).take c).length < c
      · rw [if_pos hn]
        trivial
      · rw [if_neg hn]
        have := hf (((s.bytes.drop st.cur).take c) ++ [0]) s ⟨st.cur + min c (s.bytes.length - st.cur), st.c⟩
          (by simp only; omega) hff
        rw [pure_def]
        simp only
        generalize f _ s _ = r at this
        cases r with
        | ub => exact this
        | err e => trivial
        | ok r =>
          simp only at this ⊢
          exact ⟨by omega, this.2⟩
    · rw [if_neg ha]
      trivial
  exact key _ rfl

theorem Safe.readBuf {β} (need e) {f : Bytes → P β} {Q} (hf : ∀ x, Safe (f x) Q) :
    Safe (do let c ← Metadata.readC need; let x ← Metadata.readBuf c e; f x) Q := by
  refine (Safe.readC need).bind fun c s st hc hff _ => ?_
  refine (?_ : Safe (Metadata.readBuf c e >>= f) Q) s st hc hff
  refine Safe.then ?_ hf
  unfold Metadata.readBuf
  exact (Safe.calloc _ _).then fun _ => (Safe.readFromMem (Nat.le_refl _)).then fun _ => Safe.ite (Safe.fail _) (Safe.pure _)

theorem Safe.times {α} {p : P α} (h : Safe p (fun _ _ _ => True)) (n) : Safe (times n p) (fun _ _ _ => True) := by
  induction n with
  | zero => exact Safe.pure _
  | succ n ih => exact h.then fun _ => ih.then fun _ => Safe.pure _

theorem Safe.readUnit : Safe readUnit (fun _ _ _ => True) :=
  (Safe.calloc _ _).then fun _ => Safe.readStr 1 fun _ => Safe.readStr 1 fun _ =>
    (Safe.readField _ _ _).then fun _ => Safe.pure _

theorem Safe.readDep : Safe readDep (fun _ _ _ => True) :=
  (Safe.calloc _ _).then fun _ => Safe.readField _ _ _

theorem Safe.readRef : Safe readRef (fun _ _ _ => True) :=
  (Safe.calloc _ _).then fun _ => Safe.readBuf 4 _ fun _ => Safe.readBuf 4 _ fun _ =>
    (Safe.readField _ _ _).then fun _ => (Safe.readField _ _ _).then fun _ => (Safe.readField _ _ _).then fun _ => Safe.pure _

theorem Safe.readHeader : Safe readHeader (fun _ _ _ => True) :=
  (Safe.readField _ _ _).then fun _ => (Safe.readField _ _ _).then fun _ => Safe.readStr 1 fun _ =>
    Safe.ite (Safe.fail _) ((Safe.calloc _ _).then fun _ => Safe.readBuf 1 _ fun _ => Safe.readStr 1 fun _ => Safe.pure _)

theorem Safe.readBody : Safe readBody (fun _ _ _ => True) :=
  (Safe.readField _ _ _).then fun _ => (Safe.times Safe.readUnit _).then fun _ =>
    Safe.bind (Safe.readC 1) fun _ s st hc hf _ =>
      ((Safe.times Safe.readDep _).then fun _ => (Safe.readField _ _ _).then fun _ =>
        (Safe.times Safe.readRef _).then fun _ => Safe.pure _) s st hc hf

theorem Safe.parseMetadata : Safe parseMetadata (fun _ _ _ => True) :=
  Safe.readHeader.then fun _ => Safe.ite (Safe.pure _) (Safe.readBody.then fun _ => Safe.pure _)

/-! ### Extension of the buffer -/

/-- More bytes follow. -/
def Src.more (s : Src) (t : Bytes) : Src := { s with bytes := s.bytes ++ t }

/-- If `m` succeeds, it does the same with more bytes following, unless it has exhausted the buffer. -/
def Ext {α} (m : P α) : Prop :=
  ∀ s st a st', st.cur ≤ s.bytes.length → m s st = .ok (a, st') →
    st.cur ≤ st'.cur ∧ st'.cur ≤ s.bytes.length ∧ ((∀ t, m (s.more t) st = .ok (a, st')) ∨ st'.cur = s.bytes.length)

/-- If `m` succeeds, it does the same with more bytes following. -/
def ExtStrict {α} (m : P α) : Prop :=
  ∀ s st a st', st.cur ≤ s.bytes.length → m s st = .ok (a, st') →
    st.cur ≤ st'.cur ∧ st'.cur ≤ s.bytes.length ∧ ∀ t, m (s.more t) st = .ok (a, st')

/-- `m` does not succeed on an exhausted buffer. -/
def FailsAtEnd {α} (m : P α) : Prop := ∀ s st a st', st.cur = s.bytes.length → m s st ≠ .ok (a, st')

theorem ExtStrict.ext {α} {m : P α} (h : ExtStrict m) : Ext m := fun s st a st' hc hm =>
  ⟨(h s st a st' hc hm).1, (h s st a st' hc hm).2.1, Or.inl (h s st a st' hc hm).2.2⟩

theorem bind_ok {α β} {m : P α} {f : α → P β} {s st b st''} (h : (m >>= f) s st = .ok (b, st'')) :
    ∃ a st', m s st = .ok (a, st') ∧ f a s st' = .ok (b, st'') := by
  rw [bind_def] at h
  cases hm : m s st with
  | ub => rw [hm] at h; simp at h
  | err e => rw [hm] at h; simp at h
  | ok r =>
    obtain ⟨a, st'⟩ := r
    rw [hm] at h
    exact ⟨a, st', rfl, h⟩

theorem bind_of {α β} {m : P α} {f : α → P β} {s st a st' r} (h₁ : m s st = .ok (a, st')) (h₂ : f a s st' = r) :
    (m >>= f) s st = r := by
  rw [bind_def, h₁]
  exact h₂

theorem Ext.bind {α β} {m : P α} {f : α → P β} (h₁ : Ext m) (h₂ : ∀ a, Ext (f a)) : Ext (m >>= f) := by
  intro s st b st'' hc h
  obtain ⟨a, st', hm, hf⟩ := bind_ok h
  obtain ⟨p1, p2, p3⟩ := h₁ s st a st' hc hm
  obtain ⟨q1, q2, q3⟩ := h₂ a s st' b st'' p2 hf
  refine ⟨by omega, q2, ?_⟩
  rcases p3 with p3 | p3
  · rcases q3 with q3 | q3
    · exact Or.inl fun t => bind_of (p3 t) (q3 t)
    · exact Or.inr q3
  · exact Or.inr (by omega)

theorem ExtStrict.bind {α β} {m : P α} {f : α → P β} (h₁ : ExtStrict m) (h₂ : ∀ a, ExtStrict (f a)) : ExtStrict (m >>= f) := by
  intro s st b st'' hc h
  obtain ⟨a, st', hm, hf⟩ := bind_ok h
  obtain ⟨p1, p2, p3⟩ := h₁ s st a st' hc hm
  obtain ⟨q1, q2, q3⟩ := h₂ a s st' b st'' p2 hf
  exact ⟨by omega, q2, fun t => bind_of (p3 t) (q3 t)⟩

/-- A strict continuation makes the whole strict. -/
theorem Ext.bindStrict {α β} {m : P α} {f : α → P β} (h₁ : Ext m) (h₂ : ∀ a, ExtStrict (f a)) (h₃ : ∀ a, FailsAtEnd (f a)) :
    ExtStrict (m >>= f) := by
  intro s st b st'' hc h
  obtain ⟨a, st', hm, hf⟩ := bind_ok h
  obtain ⟨p1, p2, p3⟩ := h₁ s st a st' hc hm
  obtain ⟨q1, q2, q3⟩ := h₂ a s st' b st'' p2 hf
  refine ⟨by omega, q2, fun t => ?_⟩
  rcases p3 with p3 | p3
  · exact bind_of (p3 t) (q3 t)
  · exact absurd hf (h₃ a s st' b st'' p3)

theorem FailsAtEnd.bind {α β} {m : P α} {f : α → P β} (h₁ : FailsAtEnd m) : FailsAtEnd (m >>= f) := by
  intro s st b st'' hc h
  obtain ⟨a, st', hm, -⟩ := bind_ok h
  exact h₁ s st a st' hc hm

/-- A first part that leaves the exhausted buffer exhausted. -/
theorem FailsAtEnd.after {α β} {m : P α} {f : α → P β} (h₁ : Ext m) (h₂ : ∀ a, FailsAtEnd (f a)) : FailsAtEnd (m >>= f) := by
  intro s st b st'' hc h
  obtain ⟨a, st', hm, hf⟩ := bind_ok h
  obtain ⟨p1, p2, -⟩ := h₁ s st a st' (by omega) hm
  exact h₂ a s st' b st'' (by omega) hf

theorem ExtStrict.pure {α} (x : α) : ExtStrict (pure x : P α) := by
  intro s st a st' hc h
  rw [pure_def] at h
  cases h
  exact ⟨Nat.le_refl _, hc, fun _ => rfl⟩

theorem ExtStrict.fail {α} (e : Err) : ExtStrict (fail e : P α) := by
  intro s st a st' hc h
  simp [Metadata.fail] at h

theorem ExtStrict.calloc (n e) : ExtStrict (calloc n e) := by
  intro s st a st' hc h
  unfold Metadata.calloc at h
  by_cases ha : s.alloc st.cur n = true
  · rw [if_pos ha] at h
    cases h
    refine ⟨Nat.le_refl _, hc, fun t => ?_⟩
    unfold Metadata.calloc
    rw [if_pos (by exact ha)]
  · rw [if_neg ha] at h
    simp at h

theorem readFromMem_more {cap count : Nat} {s : Src} {st got st'} (hc : st.cur ≤ s.bytes.length)
    (h : readFromMem cap count s st = .ok (got, st')) :
    got = (s.bytes.drop st.cur).take count ∧ st'.cur = st.cur + got.length ∧ st'.cur ≤ s.bytes.length ∧
    (count ≤ got.length → ∀ t, readFromMem cap count (s.more t) st = .ok (got, st')) ∧
    (got.length < count → st'.cur = s.bytes.length) := by
  rw [readFromMem_eq _ _ _ _ hc] at h
  by_cases hcap : cap < min count (s.bytes.length - st.cur)
  · rw [if_pos hcap] at h; simp at h
  · rw [if_neg hcap] at h
    simp only [Res.ok.injEq, Prod.mk.injEq] at h
    obtain ⟨rfl, rfl⟩ := h
    refine ⟨rfl, by simp, by simp; omega, fun hle t => ?_, fun hlt => ?_⟩
    · simp at hle
      rw [readFromMem_eq _ _ _ _ (by simp [Src.more]; omega)]
      have hl : (s.more t).bytes.length = s.bytes.length + t.length := by simp [Src.more]
      rw [hl, if_neg (by omega)]
      have e1 : min count (s.bytes.length + t.length - st.cur) = min count (s.bytes.length - st.cur) := by omega
      rw [e1]
      have e2 : ((s.more t).bytes.drop st.cur).take count = (s.bytes.drop st.cur).take count := by
        show ((s.bytes ++ t).drop st.cur).take count = _
        rw [List.drop_append_of_le_length hc, List.take_append_of_le_length (by simp; omega)]
      rw [e2]
    · simp at hlt ⊢
      omega

theorem Ext.readField (old need e) : Ext (readField old need e) := by
  intro s st a st' hc h
  unfold Metadata.readField at h ⊢
  obtain ⟨got, st1, hm, hf⟩ := bind_ok h
  obtain ⟨-, hcur, hle, hfull, hshort⟩ := readFromMem_more hc hm
  have hst : st1 = st' := by
    split at hf
    · simp [Metadata.fail] at hf
    · rw [pure_def] at hf
      simp at hf
      exact hf.2
  subst hst
  refine ⟨by omega, hle, ?_⟩
  by_cases hg : old.length ≤ got.length
  · left
    intro t
    refine bind_of (hfull hg t) ?_
    by_cases hn : got.length < need
    · rw [if_pos hn] at hf; simp [Metadata.fail] at hf
    · rw [if_neg hn] at hf ⊢
      exact hf
  · right
    exact hshort (by omega)

theorem ExtStrict.readField {old need} (h : old.length ≤ need) (e) : ExtStrict (readField old need e) := by
  intro s st a st' hc hm
  have hm0 := hm
  unfold Metadata.readField at hm
  obtain ⟨got, st1, h1, hf⟩ := bind_ok hm
  obtain ⟨-, hcur, hle, hfull, hshort⟩ := readFromMem_more hc h1
  by_cases hn : got.length < need
  · rw [if_pos hn] at hf; simp [Metadata.fail] at hf
  · rw [if_neg hn] at hf
    have hst : st1 = st' := by rw [pure_def] at hf; simp at hf; exact hf.2
    subst hst
    refine ⟨by omega, hle, fun t => ?_⟩
    unfold Metadata.readField
    refine bind_of (hfull (by omega) t) ?_
    rw [if_neg hn]
    exact hf

theorem FailsAtEnd.readField {old need} (h : 1 ≤ need) (e) : FailsAtEnd (readField old need e) := by
  intro s st a st' hc hm
  unfold Metadata.readField at hm
  obtain ⟨got, st1, h1, hf⟩ := bind_ok hm
  obtain ⟨hgot, -, -, -, -⟩ := readFromMem_more (by omega) h1
  have : got = [] := by rw [hgot, hc, List.drop_length, List.take_nil]
  rw [if_pos (by simp [this]; omega)] at hf
  simp [Metadata.fail] at hf

theorem Ext.readC (need) : Ext (readC need) := by
  intro s st a st' hc h
  unfold Metadata.readC at h ⊢
  obtain ⟨got, st1, hm, hf⟩ := bind_ok h
  obtain ⟨-, hcur, hle, hfull, hshort⟩ := readFromMem_more hc hm
  obtain ⟨c, st2, hm2, hf2⟩ := bind_ok hf
  have h2 : st2.cur = st1.cur := by simp only [setC, Res.ok.injEq, Prod.mk.injEq] at hm2; rw [← hm2.2]
  have hst : st2 = st' := by
    by_cases hn : got.length < need
    · rw [if_pos hn] at hf2; simp [Metadata.fail] at hf2
    · rw [if_neg hn, pure_def] at hf2
      simp at hf2
      exact hf2.2
  subst hst
  refine ⟨by omega, by omega, ?_⟩
  by_cases hg : 4 ≤ got.length
  · left
    intro t
    refine bind_of (hfull hg t) (bind_of (a := c) (st' := st2) ?_ ?_)
    · exact hm2
    · by_cases hn : got.length < need
      · rw [if_pos hn] at hf2; simp [Metadata.fail] at hf2
      · rw [if_neg hn] at hf2 ⊢
        exact hf2
  · right
    rw [h2]
    exact hshort (by omega)

theorem FailsAtEnd.readC {need} (h : 1 ≤ need) : FailsAtEnd (readC need) := by
  intro s st a st' hc hm
  unfold Metadata.readC at hm
  obtain ⟨got, st1, h1, hf⟩ := bind_ok hm
  obtain ⟨hgot, -, -, -, -⟩ := readFromMem_more (by omega) h1
  have : got = [] := by rw [hgot, hc, List.drop_length, List.take_nil]
  obtain ⟨c, st2, hm2, hf2⟩ := bind_ok hf
  rw [if_pos (by simp [this]; omega)] at hf2
  simp [Metadata.fail] at hf2

theorem ExtStrict.readC4 : ExtStrict (readC 4) := by
  intro s st a st' hc h
  unfold Metadata.readC at h ⊢
  obtain ⟨got, st1, hm, hf⟩ := bind_ok h
  obtain ⟨-, hcur, hle, hfull, hshort⟩ := readFromMem_more hc hm
  obtain ⟨c, st2, hm2, hf2⟩ := bind_ok hf
  have h2 : st2.cur = st1.cur := by simp only [setC, Res.ok.injEq, Prod.mk.injEq] at hm2; rw [← hm2.2]
  by_cases hn : got.length < 4
  · rw [if_pos hn] at hf2; simp [Metadata.fail] at hf2
  · rw [if_neg hn] at hf2
    have hst : st2 = st' := by rw [pure_def] at hf2; simp at hf2; exact hf2.2
    subst hst
    refine ⟨by omega, by omega, fun t => bind_of (hfull (by omega) t) (bind_of (a := c) (st' := st2) hm2 ?_)⟩
    rw [if_neg hn]
    exact hf2

theorem readCount_ext {cap c : Nat} {g : Bytes → Bytes} : ExtStrict (do
    let got ← Metadata.readFromMem cap c
    if got.length < c then Metadata.fail EINVALIDULP else (Pure.pure (g got) : P Bytes)) := by
  intro s st a st' hc h
  obtain ⟨got, st1, hm, hf⟩ := bind_ok h
  obtain ⟨-, hcur, hle, hfull, hshort⟩ := readFromMem_more hc hm
  by_cases hn : got.length < c
  · rw [if_pos hn] at hf; simp [Metadata.fail] at hf
  · rw [if_neg hn] at hf
    have hst : st1 = st' := by rw [pure_def] at hf; simp at hf; exact hf.2
    subst hst
    refine ⟨by omega, hle, fun t => bind_of (hfull (by omega) t) ?_⟩
    rw [if_neg hn]
    exact hf

theorem ExtStrict.readStr (c) : ExtStrict (readStr c) :=
  (ExtStrict.calloc _ _).bind fun _ => readCount_ext

theorem ExtStrict.readBuf (c e) : ExtStrict (readBuf c e) :=
  (ExtStrict.calloc _ _).bind fun _ => readCount_ext (g := fun x => x)

theorem Ext.times {α} {p : P α} (h : Ext p) (n) : Ext (times n p) := by
  induction n with
  | zero => exact (ExtStrict.pure _).ext
  | succ n ih => exact h.bind fun _ => ih.bind fun _ => (ExtStrict.pure _).ext

theorem ExtStrict.times {α} {p : P α} (h : ExtStrict p) (n) : ExtStrict (times n p) := by
  induction n with
  | zero => exact ExtStrict.pure _
  | succ n ih => exact h.bind fun _ => ih.bind fun _ => ExtStrict.pure _

theorem Ext.readUnit : Ext readUnit :=
  (ExtStrict.calloc _ _).ext.bind fun _ => (Ext.readC _).bind fun _ => (ExtStrict.readStr _).ext.bind fun _ =>
    (Ext.readC _).bind fun _ => (ExtStrict.readStr _).ext.bind fun _ => (Ext.readField _ _ _).bind fun _ => (ExtStrict.pure _).ext

theorem ExtStrict.readDep : ExtStrict readDep :=
  (ExtStrict.calloc _ _).bind fun _ => ExtStrict.readField (by simp) _

theorem ExtStrict.readRef : ExtStrict readRef :=
  (ExtStrict.calloc _ _).bind fun _ => ExtStrict.readC4.bind fun _ => (ExtStrict.readBuf _ _).bind fun _ =>
    ExtStrict.readC4.bind fun _ => (ExtStrict.readBuf _ _).bind fun _ =>
    (ExtStrict.readField (by simp) _).bind fun _ => (ExtStrict.readField (by simp) _).bind fun _ =>
    (ExtStrict.readField (by simp) _).bind fun _ => ExtStrict.pure _

theorem Ext.readHeader : Ext readHeader := by
  refine (Ext.readField _ _ _).bind fun _ => (Ext.readField _ _ _).bind fun _ => (Ext.readC _).bind fun _ =>
    (ExtStrict.readStr _).ext.bind fun path => ?_
  by_cases h : path.headD 0 = 0
  · rw [if_pos h]
    exact (ExtStrict.fail _).ext
  · rw [if_neg h]
    exact (ExtStrict.calloc _ _).ext.bind fun _ => (Ext.readC _).bind fun _ => (ExtStrict.readBuf _ _).ext.bind fun _ =>
      (Ext.readC _).bind fun _ => (ExtStrict.readStr _).ext.bind fun _ => (ExtStrict.pure _).ext

theorem readRefs_strict (units : List PUnit) (deps : List Bytes) : ExtStrict (do
    let nrefs ← Metadata.readField [0, 0, 0, 0] 4 EINVALIDULP
    let refs ← Metadata.times (leVal nrefs) Metadata.readRef
    (Pure.pure (units, deps, refs) : P (List PUnit × List Bytes × List PRef))) :=
  (ExtStrict.readField (by simp) _).bind fun _ => (ExtStrict.times ExtStrict.readRef _).bind fun _ => ExtStrict.pure _

theorem ExtStrict.readBody : ExtStrict readBody := by
  refine (Ext.readField _ _ _).bindStrict (fun nunits => ?_) fun nunits => ?_
  · refine (Ext.times Ext.readUnit _).bindStrict (fun units => ?_) fun units => ?_
    · refine (Ext.readC 1).bindStrict (fun ndeps => ?_) fun ndeps => ?_
      · exact (ExtStrict.times ExtStrict.readDep _).bind fun deps => readRefs_strict units deps
      · exact FailsAtEnd.after (Ext.times ExtStrict.readDep.ext _) fun deps => (FailsAtEnd.readField (by omega) _).bind
    · exact (FailsAtEnd.readC (by omega)).bind
  · exact FailsAtEnd.after (Ext.times Ext.readUnit _) fun _ => (FailsAtEnd.readC (by omega)).bind

theorem FailsAtEnd.readBody : FailsAtEnd readBody := (FailsAtEnd.readField (by omega) _).bind

end Verif.Metadata
