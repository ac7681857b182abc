import Verif.Md4.Model
import Verif.Md4.Spec

/-! Property C43: the MD4 implementation computes MD4. -/

namespace Verif.Md4

open Spec (Word)

/-! ### Padding -/

theorem zeros_spec {len : Nat} (h : len + 1 < 2 ^ 64) :
    (len + 1 + zeros len) % 64 = 56 ∧ (∀ j, (len + 1 + j) % 64 = 56 → zeros len ≤ j) ∧ zeros len ≤ 63 := by
  unfold zeros
  rw [Nat.mod_eq_of_lt h]
  simp only
  split <;> refine ⟨by omega, fun j hj => by omega, by omega⟩

theorem total_eq {len : Nat} (h : len + 72 < 2 ^ 64) : total len = len + 1 + zeros len + 8 := by
  have := (zeros_spec (len := len) (by omega)).2.2
  unfold total
  omega

theorem set_append_cons (x : List UInt8) (b b' : UInt8) (y : List UInt8) :
    (x ++ b :: y).set x.length b' = x ++ b' :: y := by
  simp

theorem putSizes (len : Nat) (pre : List UInt8) (hp : pre.length = len + 1 + zeros len) (n : Nat) :
    ∀ done : List UInt8, done.length + n = 8 → done = le done.length (len * 8 % 2 ^ 64) →
      ((List.range' done.length n).foldl (putSize len) (pre ++ done ++ List.replicate n 0)) =
        pre ++ le 8 (len * 8 % 2 ^ 64) := by
  induction n with
  | zero =>
    intro done hd he
    have : done.length = 8 := by omega
    rw [this] at he
    simp [he]
  | succ n ih =>
    intro done hd he
    rw [List.range'_succ, List.foldl_cons, List.replicate_succ]
    have h1 : putSize len (pre ++ done ++ 0 :: List.replicate n 0) done.length =
        pre ++ (done ++ [UInt8.ofNat ((len * 8 % 2 ^ 64) >>> (8 * done.length))]) ++ List.replicate n 0 := by
      unfold putSize
      have : len + 1 + zeros len + done.length = (pre ++ done).length := by simp [hp]
      rw [this, set_append_cons]
      simp
    rw [h1]
    have h2 := ih (done ++ [UInt8.ofNat ((len * 8 % 2 ^ 64) >>> (8 * done.length))]) (by simp; omega) (by
      rw [List.length_append, List.length_singleton]
      have aux : ∀ k v, le (k + 1) v = le k v ++ [UInt8.ofNat (v >>> (8 * k))] := by
        intro k
        induction k with
        | zero => intro v; simp [le]
        | succ k ihk =>
          intro v
          rw [le, ihk (v / 256)]
          rw [show le (k + 1) v = UInt8.ofNat v :: le k (v / 256) from rfl, List.cons_append]
          congr 3
          rw [Nat.shiftRight_eq_div_pow, Nat.shiftRight_eq_div_pow, Nat.div_div_eq_div_mul,
            show 8 * (k + 1) = 8 + 8 * k by omega, Nat.pow_add]
      rw [aux, ← he])
    rw [List.length_append, List.length_singleton] at h2
    exact h2

theorem buffer_eq (input : List UInt8) (h : input.length + 72 < 2 ^ 64) :
    buffer input = input ++ [0x80] ++ List.replicate (zeros input.length) 0 ++ le 8 (8 * input.length % 2 ^ 64) := by
  unfold buffer
  rw [total_eq h]
  have h1 : input.length + 1 + zeros input.length + 8 - input.length = (zeros input.length + 8) + 1 := by omega
  rw [h1, List.replicate_succ]
  simp only
  rw [set_append_cons]
  have h2 : input ++ 0x80 :: List.replicate (zeros input.length + 8) 0 =
      (input ++ [0x80] ++ List.replicate (zeros input.length) 0) ++ [] ++ List.replicate 8 0 := by
    rw [← List.replicate_append_replicate]
    simp
  rw [h2, show List.range 8 = List.range' ([] : List UInt8).length 8 from rfl,
    putSizes input.length _ (by simp; omega) 8 [] rfl rfl]
  rw [Nat.mul_comm]

theorem le_mod (k v : Nat) : le k (v % 256 ^ k) = le k v := by
  have h := le_leVal (le k v)
  rw [leVal_le, le_length] at h
  exact h

theorem buffer_isPadded (input : List UInt8) (h : input.length + 72 < 2 ^ 64) :
    Spec.IsPadded input (buffer input) := by
  obtain ⟨h1, h2, -⟩ := zeros_spec (len := input.length) (by omega)
  refine ⟨zeros input.length, h1, h2, ?_⟩
  rw [buffer_eq input h, show (2 : Nat) ^ 64 = 256 ^ 8 from rfl, le_mod]

/-! ### Words -/

theorem rotl_eq (a : UInt32) (s : Nat) (h : 0 < s) (h' : s < 32) :
    (rotl a s).toBitVec = a.toBitVec.rotateLeft s := by
  have e1 : (UInt32.ofNat s).toBitVec.toNat % 32 = s := by
    show s % 2 ^ 32 % 32 = s
    omega
  have e2 : (UInt32.ofNat (32 - s)).toBitVec.toNat % 32 = 32 - s := by
    show (32 - s) % 2 ^ 32 % 32 = 32 - s
    omega
  unfold rotl
  rw [UInt32.toBitVec_or, UInt32.toBitVec_shiftLeft, UInt32.toBitVec_shiftRight, BitVec.rotateLeft_def,
    Nat.mod_eq_of_lt h']
  have f1 : ((UInt32.ofNat s).toBitVec % 32).toNat = s := by rw [BitVec.toNat_umod]; exact e1
  have f2 : ((UInt32.ofNat (32 - s)).toBitVec % 32).toNat = 32 - s := by rw [BitVec.toNat_umod]; exact e2
  rw [BitVec.shiftLeft_eq', BitVec.ushiftRight_eq', f1, f2]

theorem shift_or (x : UInt32) (b : UInt8) (hx : x.toNat < 2 ^ 24) :
    ((x <<< 8) ||| (0x00ff &&& b.toUInt32)).toNat = x.toNat * 256 + b.toNat := by
  have hb := b.toNat_lt
  have h1 : (0x00ff &&& b.toUInt32).toNat = b.toNat := by
    rw [UInt32.toNat_and, UInt8.toNat_toUInt32]
    show 255 &&& b.toNat = b.toNat
    rw [Nat.and_comm, show (255 : Nat) = 2 ^ 8 - 1 from rfl, Nat.and_two_pow_sub_one_eq_mod]
    omega
  have h2 : (x <<< 8).toNat = x.toNat <<< 8 := by
    rw [UInt32.toNat_shiftLeft]
    show (x.toNat <<< 8) % 2 ^ 32 = _
    rw [Nat.shiftLeft_eq]
    omega
  rw [UInt32.toNat_or, h1, h2, ← Nat.shiftLeft_add_eq_or_of_lt (by omega), Nat.shiftLeft_eq]

theorem take4 (l : List UInt8) (j : Nat) (h : 4 * j + 4 ≤ l.length) :
    (l.drop (4 * j)).take 4 = [l.getD (4 * j) 0, l.getD (4 * j + 1) 0, l.getD (4 * j + 2) 0, l.getD (4 * j + 3) 0] := by
  have h0 : 4 * j < l.length := by omega
  have h1 : 4 * j + 1 < l.length := by omega
  have h2 : 4 * j + 2 < l.length := by omega
  have h3 : 4 * j + 3 < l.length := by omega
  have g : ∀ i, i < l.length → l.drop i = l.getD i 0 :: l.drop (i + 1) := by
    intro i hi
    rw [List.drop_eq_getElem_cons hi, List.getD_eq_getElem?_getD, List.getElem?_eq_getElem hi]
    rfl
  rw [g _ h0, g _ h1, g _ h2, g _ h3]
  rfl

theorem readWord_eq (block : List UInt8) (j : Nat) (h : 4 * j + 4 ≤ block.length) :
    (readWord block j).toBitVec = Spec.word block j := by
  apply BitVec.eq_of_toNat_eq
  rw [UInt32.toNat_toBitVec]
  unfold Spec.word
  rw [BitVec.toNat_ofNat, take4 block j h]
  unfold readWord
  simp only [show List.range 4 = [0, 1, 2, 3] from rfl, List.foldl_cons, List.foldl_nil]
  simp only [Nat.sub_zero, show 3 - 1 = 2 from rfl, show 3 - 2 = 1 from rfl, Nat.sub_self, Nat.add_zero]
  generalize block.getD (4 * j) 0 = b0
  generalize block.getD (4 * j + 1) 0 = b1
  generalize block.getD (4 * j + 2) 0 = b2
  generalize block.getD (4 * j + 3) 0 = b3
  have hb0 := b0.toNat_lt
  have hb1 := b1.toNat_lt
  have hb2 := b2.toNat_lt
  have hb3 := b3.toNat_lt
  have h3 := shift_or 0 b3 (by decide)
  have h2 := shift_or _ b2 (by rw [h3]; show 0 * 256 + _ < _; omega)
  have h1 := shift_or _ b1 (by rw [h2, h3]; show (0 * 256 + _) * 256 + _ < _; omega)
  have h0 := shift_or _ b0 (by rw [h1, h2, h3]; show ((0 * 256 + _) * 256 + _) * 256 + _ < _; omega)
  rw [h0, h1, h2, h3]
  simp only [leVal]
  show (((0 * 256 + _) * 256 + _) * 256 + _) * 256 + _ = _
  omega

/-! ### Rounds -/

/-- The state as the RFC's words. -/
def bv (s : St) : Word × Word × Word × Word := (s.a.toBitVec, s.b.toBitVec, s.c.toBitVec, s.d.toBitVec)

/-- The state with the register written by the next line first. -/
def view (r : Reg) (s : St) : Word × Word × Word × Word :=
  match r with
  | .A => (s.a.toBitVec, s.b.toBitVec, s.c.toBitVec, s.d.toBitVec)
  | .D => (s.d.toBitVec, s.a.toBitVec, s.b.toBitVec, s.c.toBitVec)
  | .C => (s.c.toBitVec, s.d.toBitVec, s.a.toBitVec, s.b.toBitVec)
  | .B => (s.b.toBitVec, s.c.toBitVec, s.d.toBitVec, s.a.toBitVec)

/-- The register written after `r`. -/
def nextReg : Reg → Reg
  | .A => .D
  | .D => .C
  | .C => .B
  | .B => .A

theorem c2 : (0x5A827999 : UInt32).toBitVec = (0x5A827999 : BitVec 32) :=
  BitVec.eq_of_toNat_eq (by decide)
theorem c3 : (0x6ED9EBA1 : UInt32).toBitVec = (0x6ED9EBA1 : BitVec 32) :=
  BitVec.eq_of_toNat_eq (by decide)

theorem c1 (x : Word) : x + 0 = x := BitVec.add_zero x

theorem r1_view (r : Reg) (X : Nat → UInt32) (i s : Nat) (h : 0 < s ∧ s < 32) (st : St) :
    view (nextReg r) (r1 r X i s st) = Spec.op Spec.F 0 (fun j => (X j).toBitVec) (view r st) (i, s) := by
  cases r <;>
    simp only [view, nextReg, r1, upd, Spec.op, Spec.F, rotl_eq _ s h.1 h.2, UInt32.toBitVec_add, UInt32.toBitVec_or,
      UInt32.toBitVec_and, UInt32.toBitVec_not, c1]

theorem r2_gen (r : Reg) (X : Nat → UInt32) (c : UInt32) (i s : Nat) (h : 0 < s ∧ s < 32) (st : St) :
    view (nextReg r) (upd r (fun x y z w => rotl (x + ((y &&& z) ||| (y &&& w) ||| (z &&& w)) + X i + c) s) st) =
      Spec.op Spec.G c.toBitVec (fun j => (X j).toBitVec) (view r st) (i, s) := by
  cases r <;>
    simp only [view, nextReg, upd, Spec.op, Spec.G, rotl_eq _ s h.1 h.2, UInt32.toBitVec_add, UInt32.toBitVec_or,
      UInt32.toBitVec_and]

theorem r3_gen (r : Reg) (X : Nat → UInt32) (c : UInt32) (i s : Nat) (h : 0 < s ∧ s < 32) (st : St) :
    view (nextReg r) (upd r (fun x y z w => rotl (x + (y ^^^ z ^^^ w) + X i + c) s) st) =
      Spec.op Spec.H c.toBitVec (fun j => (X j).toBitVec) (view r st) (i, s) := by
  cases r <;>
    simp only [view, nextReg, upd, Spec.op, Spec.H, rotl_eq _ s h.1 h.2, UInt32.toBitVec_add, UInt32.toBitVec_xor]

theorem r2_view (r : Reg) (X : Nat → UInt32) (i s : Nat) (h : 0 < s ∧ s < 32) (st : St) :
    view (nextReg r) (r2 r X i s st) = Spec.op Spec.G 0x5A827999 (fun j => (X j).toBitVec) (view r st) (i, s) := by
  rw [← c2, ← r2_gen r X _ i s h st, r2]

theorem r3_view (r : Reg) (X : Nat → UInt32) (i s : Nat) (h : 0 < s ∧ s < 32) (st : St) :
    view (nextReg r) (r3 r X i s st) = Spec.op Spec.H 0x6ED9EBA1 (fun j => (X j).toBitVec) (view r st) (i, s) := by
  rw [← c3, ← r3_gen r X _ i s h st, r3]

/-- Four consecutive lines of a round. -/
theorem four {line : Reg → (Nat → UInt32) → Nat → Nat → St → St} {X : Nat → UInt32}
    {op : Word × Word × Word × Word → Nat × Nat → Word × Word × Word × Word}
    (hl : ∀ r i s, 0 < s ∧ s < 32 → ∀ st, view (nextReg r) (line r X i s st) = op (view r st) (i, s))
    {i0 i1 i2 i3 s0 s1 s2 s3 : Nat} (h0 : 0 < s0 ∧ s0 < 32) (h1 : 0 < s1 ∧ s1 < 32) (h2 : 0 < s2 ∧ s2 < 32)
    (h3 : 0 < s3 ∧ s3 < 32) (st : St) :
    view .A (line .B X i3 s3 (line .C X i2 s2 (line .D X i1 s1 (line .A X i0 s0 st)))) =
      [(i0, s0), (i1, s1), (i2, s2), (i3, s3)].foldl op (view .A st) := by
  have e3 := hl .B i3 s3 h3
  have e2 := hl .C i2 s2 h2
  have e1 := hl .D i1 s1 h1
  have e0 := hl .A i0 s0 h0
  simp only [nextReg] at e0 e1 e2 e3
  rw [e3, e2, e1, e0]
  rfl


theorem round1_eq (X : Nat → UInt32) (st : St) :
    view .A (round1 X st) = Spec.ops1.foldl (Spec.op Spec.F 0 fun j => (X j).toBitVec) (view .A st) := by
  have hl := fun r i s h st => r1_view r X i s h st
  show _ = ([(0, 3), (1, 7), (2, 11), (3, 19)] ++ ([(4, 3), (5, 7), (6, 11), (7, 19)] ++
    ([(8, 3), (9, 7), (10, 11), (11, 19)] ++ [(12, 3), (13, 7), (14, 11), (15, 19)]))).foldl _ _
  unfold round1
  rw [four hl (by decide) (by decide) (by decide) (by decide), four hl (by decide) (by decide) (by decide) (by decide),
    four hl (by decide) (by decide) (by decide) (by decide), four hl (by decide) (by decide) (by decide) (by decide),
    List.foldl_append, List.foldl_append, List.foldl_append]

theorem round2_eq (X : Nat → UInt32) (st : St) :
    view .A (round2 X st) = Spec.ops2.foldl (Spec.op Spec.G 0x5A827999 fun j => (X j).toBitVec) (view .A st) := by
  have hl := fun r i s h st => r2_view r X i s h st
  show _ = ([(0, 3), (4, 5), (8, 9), (12, 13)] ++ ([(1, 3), (5, 5), (9, 9), (13, 13)] ++
    ([(2, 3), (6, 5), (10, 9), (14, 13)] ++ [(3, 3), (7, 5), (11, 9), (15, 13)]))).foldl _ _
  unfold round2
  rw [four hl (by decide) (by decide) (by decide) (by decide), four hl (by decide) (by decide) (by decide) (by decide),
    four hl (by decide) (by decide) (by decide) (by decide), four hl (by decide) (by decide) (by decide) (by decide),
    List.foldl_append, List.foldl_append, List.foldl_append]

theorem round3_eq (X : Nat → UInt32) (st : St) :
    view .A (round3 X st) = Spec.ops3.foldl (Spec.op Spec.H 0x6ED9EBA1 fun j => (X j).toBitVec) (view .A st) := by
  have hl := fun r i s h st => r3_view r X i s h st
  show _ = ([(0, 3), (8, 9), (4, 11), (12, 15)] ++ ([(2, 3), (10, 9), (6, 11), (14, 15)] ++
    ([(1, 3), (9, 9), (5, 11), (13, 15)] ++ [(3, 3), (11, 9), (7, 11), (15, 15)]))).foldl _ _
  unfold round3
  rw [four hl (by decide) (by decide) (by decide) (by decide), four hl (by decide) (by decide) (by decide) (by decide),
    four hl (by decide) (by decide) (by decide) (by decide), four hl (by decide) (by decide) (by decide) (by decide),
    List.foldl_append, List.foldl_append, List.foldl_append]


/-- The operations of the RFC read only words 0 to 15. -/
theorem op_congr {f c X Y} (ops : List (Nat × Nat)) (h : ∀ p ∈ ops, X p.1 = Y p.1) (s) :
    ops.foldl (Spec.op f c X) s = ops.foldl (Spec.op f c Y) s := by
  induction ops generalizing s with
  | nil => rfl
  | cons p ops ih =>
    rw [List.foldl_cons, List.foldl_cons, ih (fun q hq => h q (by simp [hq]))]
    congr 1
    obtain ⟨k, n⟩ := p
    obtain ⟨a, b, c', d⟩ := s
    have := h (k, n) (by simp)
    simp only [Spec.op] at this ⊢
    rw [this]

theorem doBlock_eq (block : List UInt8) (h : block.length = 64) (st : St) :
    view .A (doBlock block st) = Spec.process (view .A st) block := by
  have hw : ∀ j, j < 16 → (readWord block j).toBitVec = Spec.word block j :=
    fun j hj => readWord_eq block j (by omega)
  have h1 := round1_eq (readWord block) st
  have h2 := round2_eq (readWord block) (round1 (readWord block) st)
  have h3 := round3_eq (readWord block) (round2 (readWord block) (round1 (readWord block) st))
  have k1 : ∀ p ∈ Spec.ops1, (readWord block p.1).toBitVec = Spec.word block p.1 :=
    fun p hp => hw _ ((by decide : ∀ p ∈ Spec.ops1, p.1 < 16) p hp)
  have k2 : ∀ p ∈ Spec.ops2, (readWord block p.1).toBitVec = Spec.word block p.1 :=
    fun p hp => hw _ ((by decide : ∀ p ∈ Spec.ops2, p.1 < 16) p hp)
  have k3 : ∀ p ∈ Spec.ops3, (readWord block p.1).toBitVec = Spec.word block p.1 :=
    fun p hp => hw _ ((by decide : ∀ p ∈ Spec.ops3, p.1 < 16) p hp)
  rw [op_congr (Y := Spec.word block) _ k1] at h1
  rw [op_congr (Y := Spec.word block) _ k2, h1] at h2
  rw [op_congr (Y := Spec.word block) _ k3, h2] at h3
  unfold doBlock Spec.process
  simp only
  rw [← h3]
  generalize round3 (readWord block) (round2 (readWord block) (round1 (readWord block) st)) = n
  simp only [view, UInt32.toBitVec_add]

theorem loop_eq (blocks : List (List UInt8)) (hb : ∀ b ∈ blocks, b.length = 64) (st : St) :
    view .A (loop doBlock blocks.length blocks.flatten st) = blocks.foldl Spec.process (view .A st) := by
  induction blocks generalizing st with
  | nil => rfl
  | cons b bs ih =>
    have h64 := hb b (by simp)
    rw [List.length_cons, loop, List.flatten_cons, List.foldl_cons]
    rw [List.drop_left' h64, List.take_left' h64, ih (fun x hx => hb x (by simp [hx])), doBlock_eq b h64]

theorem append_eq (w : UInt32) : append w = le 4 w.toBitVec.toNat := by
  have hw := w.toNat_lt
  have key : ∀ i, i < 4 → ((w >>> UInt32.ofNat (8 * i)) &&& 0x0ff).toUInt8 = UInt8.ofNat (w.toNat / 256 ^ i) := by
    intro i hi
    apply UInt8.toNat_inj.mp
    rw [UInt32.toNat_toUInt8, UInt32.toNat_and, UInt32.toNat_shiftRight, UInt8.toNat_ofNat']
    have e1 : (UInt32.ofNat (8 * i)).toNat % 32 = 8 * i := by
      show 8 * i % 2 ^ 32 % 32 = 8 * i
      omega
    rw [e1, Nat.shiftRight_eq_div_pow, show (0x0ff : UInt32).toNat = 2 ^ 8 - 1 from rfl, Nat.and_two_pow_sub_one_eq_mod,
      Nat.pow_mul, show (2 : Nat) ^ 8 = 256 from rfl, Nat.mod_mod]
  unfold append
  rw [show List.range 4 = [0, 1, 2, 3] from rfl, List.map_cons, List.map_cons, List.map_cons, List.map_cons, List.map_nil,
    key 0 (by omega), key 1 (by omega), key 2 (by omega), key 3 (by omega), UInt32.toNat_toBitVec]
  simp only [le, Nat.div_div_eq_div_mul, Nat.pow_zero, Nat.div_one]

/-- Any list of 64 n bytes is the concatenation of n blocks. -/
theorem exists_blocks (n : Nat) (l : List UInt8) (h : l.length = 64 * n) :
    ∃ blocks, Spec.IsBlocks l blocks ∧ blocks.length = n := by
  induction n generalizing l with
  | zero =>
    have : l = [] := List.length_eq_zero_iff.mp (by omega)
    subst this
    exact ⟨[], ⟨rfl, by simp⟩, rfl⟩
  | succ n ih =>
    obtain ⟨bs, ⟨h1, h2⟩, h3⟩ := ih (l.drop 64) (by simp; omega)
    refine ⟨l.take 64 :: bs, ⟨?_, ?_⟩, by simp [h3]⟩
    · rw [List.flatten_cons, ← h1, List.take_append_drop]
    · intro b hb
      rcases List.mem_cons.mp hb with rfl | hb
      · simp; omega
      · exact h2 b hb

/-- **C43** The result of `MD4` is the digest RFC 1320 defines, for every input (whose padded length can
be represented in 64 bits). -/
theorem C43_md4_is_rfc1320 (input : List UInt8) (h : input.length + 72 < 2 ^ 64) :
    Spec.IsMd4 input (md4 input) := by
  have hp := buffer_isPadded input h
  have hz := (zeros_spec (len := input.length) (by omega)).1
  have hl : (buffer input).length = total input.length := by
    rw [buffer_eq input h, total_eq h]
    simp
    omega
  have ht : total input.length = 64 * (total input.length / 64) := by
    rw [total_eq h]; omega
  obtain ⟨blocks, hb, hn⟩ := exists_blocks _ _ (hl.trans ht)
  refine ⟨buffer input, blocks, hp, hb, ?_⟩
  unfold md4
  simp only
  rw [← hn, hb.1]
  have := loop_eq blocks hb.2 ⟨0x67452301, 0xefcdab89, 0x98badcfe, 0x10325476⟩
  rw [show view .A ⟨0x67452301, 0xefcdab89, 0x98badcfe, 0x10325476⟩ = Spec.init from by decide +kernel] at this
  rw [← this, append_eq, append_eq, append_eq, append_eq]
  rfl

/-- **C43** The digest is determined by the input: the definition of the RFC leaves no choice. -/
theorem C43_md4_unique (input d d' : List UInt8) (h : Spec.IsMd4 input d) (h' : Spec.IsMd4 input d') : d = d' := by
  obtain ⟨p, bs, ⟨k, k1, k2, rfl⟩, ⟨b1, b2⟩, rfl⟩ := h
  obtain ⟨p', bs', ⟨k', k1', k2', rfl⟩, ⟨b1', b2'⟩, rfl⟩ := h'
  have : k = k' := Nat.le_antisymm (k2 _ k1') (k2' _ k1)
  subst this
  rw [b1] at b1'
  have aux : ∀ x y : List (List UInt8), x.flatten = y.flatten → (∀ b ∈ x, b.length = 64) → (∀ b ∈ y, b.length = 64) →
      x = y := by
    intro x
    induction x with
    | nil =>
      intro y hxy _ hy
      cases y with
      | nil => rfl
      | cons b y =>
        have := congrArg List.length hxy
        have hb := hy b (by simp)
        simp only [List.flatten_nil, List.length_nil, List.flatten_cons, List.length_append] at this
        omega
    | cons a x ih =>
      intro y hxy hx hy
      have ha := hx a (by simp)
      cases y with
      | nil =>
        have := congrArg List.length hxy
        simp only [List.flatten_nil, List.length_nil, List.flatten_cons, List.length_append] at this
        omega
      | cons b y =>
        have hb := hy b (by simp)
        rw [List.flatten_cons, List.flatten_cons] at hxy
        obtain ⟨e1, e2⟩ := List.append_inj hxy (by omega)
        rw [e1, ih y e2 (fun c hc => hx c (by simp [hc])) (fun c hc => hy c (by simp [hc]))]
  rw [aux bs bs' b1' b2 b2']

/-- Test vectors of RFC 1320, A.5: MD4("") and MD4("abc"). -/
example : md4 [] = [0x31, 0xd6, 0xcf, 0xe0, 0xd1, 0x6a, 0xe9, 0x31, 0xb7, 0x3c, 0x59, 0xd7, 0xe0, 0xc0, 0x89, 0xc0] ∧
    md4 [97, 98, 99] = [0xa4, 0x48, 0x01, 0x7a, 0xaf, 0x21, 0xd8, 0x52, 0x5f, 0xc1, 0x0a, 0xe8, 0x7a, 0xa6, 0x72, 0x9d] := by
  decide +kernel

/-- "abc", and its digest compared with any other the RFC allows. -/
example := C43_md4_is_rfc1320 [97, 98, 99] (by decide)
example (d : List UInt8) (h : Spec.IsMd4 [97, 98, 99] d) : d = md4 [97, 98, 99] :=
  C43_md4_unique _ _ _ h (C43_md4_is_rfc1320 _ (by decide))

end Verif.Md4
