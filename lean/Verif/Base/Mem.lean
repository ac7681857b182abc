/-!
Byte memories, little-endian integers and a few facts about them.  Shared by the models.
-/

namespace Verif

/-- A byte-addressed memory.  Addresses are natural numbers; the models only use addresses below
2^64 and say so in their hypotheses. -/
abbrev Mem := Nat → UInt8

/-- `bytes` stored from address `a` on. -/
def Mem.store (m : Mem) (a : Nat) (bytes : List UInt8) : Mem :=
  fun i => if a ≤ i ∧ i < a + bytes.length then bytes.getD (i - a) 0 else m i

/-- The `n` bytes at address `a`. -/
def Mem.load (m : Mem) (a : Nat) : (n : Nat) → List UInt8
  | 0 => []
  | n + 1 => m a :: Mem.load m (a + 1) n

/-- `k`-byte little-endian representation of `v` (truncating). -/
def le : (k : Nat) → (v : Nat) → List UInt8
  | 0, _ => []
  | k + 1, v => UInt8.ofNat v :: le k (v / 256)

/-- Value of a little-endian byte string. -/
def leVal : List UInt8 → Nat
  | [] => 0
  | b :: bs => b.toNat + 256 * leVal bs

@[simp] theorem le_length (k v) : (le k v).length = k := by
  induction k generalizing v with
  | zero => rfl
  | succ k ih => simp [le, ih]

theorem leVal_le (k v) : leVal (le k v) = v % 256 ^ k := by
  induction k generalizing v with
  | zero => simp [le, leVal, Nat.mod_one]
  | succ k ih =>
    simp only [le, leVal, ih, UInt8.toNat_ofNat']
    rw [Nat.pow_succ 256 k, Nat.mul_comm (256 ^ k), Nat.mod_mul]

theorem leVal_le_of_lt {k v} (h : v < 256 ^ k) : leVal (le k v) = v := by
  rw [leVal_le, Nat.mod_eq_of_lt h]

theorem leVal_lt (l) : leVal l < 256 ^ l.length := by
  induction l with
  | nil => simp [leVal]
  | cons b bs ih =>
    simp only [leVal, List.length_cons, Nat.pow_succ]
    have := b.toNat_lt
    omega

theorem le_leVal (l : List UInt8) : le l.length (leVal l) = l := by
  induction l with
  | nil => rfl
  | cons b bs ih =>
    simp only [List.length_cons, le, leVal]
    have hb := b.toNat_lt
    have h1 : (b.toNat + 256 * leVal bs) / 256 = leVal bs := by omega
    rw [h1, ih]
    congr 1
    apply UInt8.toNat_inj.mp
    simp only [UInt8.toNat_ofNat']
    omega

@[simp] theorem load_length (m : Mem) (a n) : (m.load a n).length = n := by
  induction n generalizing a with
  | zero => rfl
  | succ n ih => simp [Mem.load, ih]

theorem load_getElem (m : Mem) (a n i) (h : i < (m.load a n).length) : (m.load a n)[i] = m (a + i) := by
  induction n generalizing a i with
  | zero => simp [Mem.load] at h
  | succ n ih =>
    cases i with
    | zero => simp [Mem.load]
    | succ i => simp only [Mem.load, List.getElem_cons_succ]; rw [ih]; congr 1; omega

theorem load_append (m : Mem) (a n k) : m.load a (n + k) = m.load a n ++ m.load (a + n) k := by
  induction n generalizing a with
  | zero => simp [Mem.load]
  | succ n ih =>
    rw [show n + 1 + k = (n + k) + 1 by omega]
    simp only [Mem.load, ih, List.cons_append]
    rw [show a + 1 + n = a + (n + 1) by omega]

theorem load_congr {m m' : Mem} {a n} (h : ∀ i, a ≤ i → i < a + n → m i = m' i) :
    m.load a n = m'.load a n := by
  induction n generalizing a with
  | zero => rfl
  | succ n ih =>
    simp only [Mem.load]
    rw [h a (by omega) (by omega), ih]
    intro i h1 h2
    exact h i (by omega) (by omega)

theorem store_in {m : Mem} {a bytes} {i : Nat} (h : i < bytes.length) :
    m.store a bytes (a + i) = bytes[i] := by
  simp [Mem.store, h]

theorem store_out {m : Mem} {a bytes i} (h : i < a ∨ a + bytes.length ≤ i) :
    m.store a bytes i = m i := by
  unfold Mem.store; rw [if_neg]; omega

theorem load_store {m : Mem} {a bytes} : (m.store a bytes).load a bytes.length = bytes := by
  apply List.ext_getElem
  · simp
  · intro i h1 h2
    rw [load_getElem, store_in h2]

theorem load_store_out {m : Mem} {a b bytes n} (h : b + n ≤ a ∨ a + bytes.length ≤ b) :
    (m.store a bytes).load b n = m.load b n := by
  apply load_congr
  intro i h1 h2
  apply store_out; omega

theorem store_nil (m : Mem) (a) : m.store a [] = m := by
  funext i; rw [store_out]; simp; omega

theorem store_load (m : Mem) (a n) : m.store a (m.load a n) = m := by
  funext i
  by_cases h : a ≤ i ∧ i < a + n
  · obtain ⟨j, rfl⟩ : ∃ j, i = a + j := ⟨i - a, by omega⟩
    rw [store_in (by simp; omega), load_getElem]
  · rw [store_out]; simp; omega

theorem store_append (m : Mem) (a x y) :
    m.store a (x ++ y) = (m.store a x).store (a + x.length) y := by
  funext i
  by_cases h1 : a + x.length ≤ i ∧ i < a + x.length + y.length
  · obtain ⟨j, rfl⟩ : ∃ j, i = a + x.length + j := ⟨i - (a + x.length), by omega⟩
    rw [store_in (by omega), Nat.add_assoc a, store_in (by simp; omega)]
    rw [List.getElem_append_right (by omega)]
    congr 1; omega
  · rw [store_out (a := a + x.length) (by omega)]
    by_cases h2 : a ≤ i ∧ i < a + x.length
    · obtain ⟨j, rfl⟩ : ∃ j, i = a + j := ⟨i - a, by omega⟩
      rw [store_in (by simp; omega), store_in (by omega)]
      rw [List.getElem_append_left (by omega)]
    · rw [store_out (by simp; omega), store_out (by omega)]

/-- The memory holds `l` at `a`. -/
def At (m : Mem) (a : Nat) (l : List UInt8) : Prop := m.load a l.length = l

theorem at_append {m : Mem} {a l1 l2} :
    At m a (l1 ++ l2) ↔ At m a l1 ∧ At m (a + l1.length) l2 := by
  unfold At
  rw [List.length_append, load_append]
  constructor
  · intro h
    exact List.append_inj h (by simp)
  · rintro ⟨h1, h2⟩
    rw [h1, h2]

theorem at_cons {m : Mem} {a x l} : At m a (x :: l) ↔ m a = x ∧ At m (a + 1) l := by
  simp [At, Mem.load]

theorem at_congr {m m' : Mem} {a l} (h : ∀ i, a ≤ i → i < a + l.length → m i = m' i) :
    At m a l ↔ At m' a l := by
  unfold At; rw [load_congr h]

theorem at_store (m : Mem) (a l) : At (m.store a l) a l := load_store

theorem at_nil (m : Mem) (a) : At m a [] := rfl

end Verif
