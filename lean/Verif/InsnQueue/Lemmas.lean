import Verif.InsnQueue.Spec

/-! Helper facts for the instruction queue. -/

namespace Verif.InsnQueue

open Spec

theorem alignTo_4 {n : Nat} (h : n < 2 ^ 31) : (alignTo (BitVec.ofNat 32 n) 4).toNat = (n + 3) / 4 * 4 := by
  have key : ∀ x : BitVec 32, (x &&& ~~~((4 : BitVec 32) - 1)) = (x >>> 2) <<< 2 := by
    intro x
    apply BitVec.eq_of_getLsbD_eq
    intro i hi
    have : ∀ i < 32, (~~~((4 : BitVec 32) - 1)).getLsbD i = decide (2 ≤ i) := by decide
    rw [BitVec.getLsbD_and, this i hi, BitVec.getLsbD_shiftLeft, BitVec.getLsbD_ushiftRight]
    by_cases h2 : 2 ≤ i
    · have h3 : 2 + (i - 2) = i := by omega
      simp [h2, hi, h3]
    · simp [h2]
  unfold alignTo
  simp only
  rw [key]
  have e : ((4 : BitVec 32) - 1) = BitVec.ofNat 32 3 := by decide
  rw [e, ← BitVec.ofNat_add]
  simp only [BitVec.toNat_shiftLeft, BitVec.toNat_ushiftRight, BitVec.toNat_ofNat,
    Nat.shiftLeft_eq, Nat.shiftRight_eq_div_pow]
  omega

theorem alignTo_8 {n : Nat} (h : n < 2 ^ 31) : (alignTo (BitVec.ofNat 32 n) 8).toNat = (n + 7) / 8 * 8 := by
  have key : ∀ x : BitVec 32, (x &&& ~~~((8 : BitVec 32) - 1)) = (x >>> 3) <<< 3 := by
    intro x
    apply BitVec.eq_of_getLsbD_eq
    intro i hi
    have : ∀ i < 32, (~~~((8 : BitVec 32) - 1)).getLsbD i = decide (3 ≤ i) := by decide
    rw [BitVec.getLsbD_and, this i hi, BitVec.getLsbD_shiftLeft, BitVec.getLsbD_ushiftRight]
    by_cases h2 : 3 ≤ i
    · have h3 : 3 + (i - 3) = i := by omega
      simp [h2, hi, h3]
    · simp [h2]
  unfold alignTo
  simp only
  rw [key]
  have e : ((8 : BitVec 32) - 1) = BitVec.ofNat 32 7 := by decide
  rw [e, ← BitVec.ofNat_add]
  simp only [BitVec.toNat_shiftLeft, BitVec.toNat_ushiftRight, BitVec.toNat_ofNat,
    Nat.shiftLeft_eq, Nat.shiftRight_eq_div_pow]
  omega

/-- An instruction occupies at least the bytes written for it. -/
theorem encode_le {r : Req} (hv : Req.Valid r) : r.encode.length ≤ r.insnSize := by
  cases r with
  | print s =>
    obtain ⟨_, h⟩ := hv
    simp only [Req.insnSize, Req.encode, List.length_append, le_length, List.length_cons,
      List.length_nil]
    rw [alignTo_4 (by omega)]; omega
  | write a bs =>
    obtain ⟨_, h⟩ := hv
    simp only [Req.insnSize, Req.encode, List.length_append, le_length, List.length_cons,
      List.length_nil]
    rw [alignTo_8 (by omega)]; omega

theorem insnSize_pos {r : Req} (hv : Req.Valid r) : 0 < r.insnSize := by
  have := encode_le hv
  have h : 0 < r.encode.length := by
    cases r <;> simp [Req.encode] <;> omega
  omega

/-- The buffer holds the given requests one after the other from `p` on. -/
def Layout (buf : Mem) : Nat → List Req → Prop
  | _, [] => True
  | p, r :: rs => At buf p r.encode ∧ Layout buf (p + r.insnSize) rs

/-- Number of bytes occupied by requests. -/
def total : List Req → Nat
  | [] => 0
  | r :: rs => r.insnSize + total rs

theorem total_append (a b) : total (a ++ b) = total a + total b := by
  induction a with
  | nil => simp [total]
  | cons x xs ih => simp [total, ih]; omega

theorem layout_append {buf p a b} :
    Layout buf p (a ++ b) ↔ Layout buf p a ∧ Layout buf (p + total a) b := by
  induction a generalizing p with
  | nil => simp [Layout, total]
  | cons x xs ih =>
    simp only [List.cons_append, Layout, total, ih]
    rw [show p + x.insnSize + total xs = p + (x.insnSize + total xs) by omega]
    exact and_assoc.symm

theorem layout_congr {buf buf' : Mem} {p rs} (hv : ∀ r ∈ rs, Req.Valid r)
    (h : ∀ i, p ≤ i → i < p + total rs → buf i = buf' i) : Layout buf p rs → Layout buf' p rs := by
  induction rs generalizing p with
  | nil => simp [Layout]
  | cons r rs ih =>
    rintro ⟨h1, h2⟩
    have he := encode_le (hv r (by simp))
    simp only [total] at h
    refine ⟨(at_congr ?_).mp h1, ih (fun r hr => hv r (by simp [hr])) ?_ h2⟩
    · intro i a b; exact h i a (by omega)
    · intro i a b; exact h i (by omega) (by omega)

theorem bytesAt_at {buf p l} (h : At buf p l) (hb : p + l.length ≤ bufMax) :
    bytesAt buf p l.length = some l := by
  unfold bytesAt; rw [if_pos hb, h]

theorem cstringAt_at {buf : Mem} {p s} (h : At buf p (s ++ [0])) (hs : ∀ b ∈ s, b ≠ 0) {room}
    (hr : s.length < room) : cstringAt buf p room = some s := by
  induction s generalizing p room with
  | nil =>
    rw [List.nil_append, at_cons] at h
    obtain ⟨r, rfl⟩ : ∃ r, room = r + 1 := ⟨room - 1, by simp at hr; omega⟩
    simp [cstringAt, h.1]
  | cons x xs ih =>
    rw [List.cons_append, at_cons] at h
    obtain ⟨r, rfl⟩ : ∃ r, room = r + 1 := ⟨room - 1, by simp at hr; omega⟩
    have hx : x ≠ 0 := hs x (by simp)
    simp only [List.length_cons] at hr
    have hi := ih h.2 (fun b hb => hs b (by simp [hb])) (room := r) (by omega)
    simp [cstringAt, h.1, hx, hi]

theorem int24_le {n : Nat} (h : n < 2 ^ 23) : int24 (le 3 n) = n := by
  unfold int24
  rw [leVal_le_of_lt (by omega), if_pos h]

/-- What the interpreter does with the write it is about to fail. -/
def failedEvent : Req → Nat → Event
  | .print s, _ => .print s
  | .write a bs, k => .writeFailed a bs k

/-- Decoding an encoded request, whether or not its write fails. -/
theorem step_at {buf : Mem} {p r fault} (hv : Req.Valid r) (h : At buf p r.encode)
    (hb : p + r.insnSize ≤ bufMax) :
    step buf p fault = match fault, r with
      | some k, .write a bs => .next (some (.writeFailed a bs k)) (-1)
      | _, _ => .next (some (asked r)) r.insnSize := by
  have he := encode_le hv
  have hpos := insnSize_pos hv
  have hmax : bufMax = 2097152 := rfl
  unfold step
  rw [if_neg (by omega)]
  simp only [Int.toNat_natCast]
  cases r with
  | print s =>
    unfold Req.encode at h he
    simp only [List.append_assoc] at h
    simp only [List.length_append, le_length, List.length_cons, List.length_nil] at he
    rw [List.singleton_append, at_cons, at_append, le_length] at h
    obtain ⟨h0, h1, h2⟩ := h
    have e1 := bytesAt_at h1 (by rw [le_length]; omega)
    rw [le_length] at e1
    have e2 := cstringAt_at h2 hv.1 (room := bufMax - (p + 4)) (by omega)
    rw [show p + 1 + 3 = p + 4 by omega] at e2
    simp only [h0, e1, e2]
    rw [int24_le (by omega)]
    cases fault <;> simp [asked]
  | write a bs =>
    unfold Req.encode at h he
    simp only [List.append_assoc] at h
    simp only [List.length_append, le_length, List.length_cons, List.length_nil] at he
    rw [List.singleton_append, at_cons, at_append, at_append, at_append] at h
    simp only [le_length] at h
    obtain ⟨h0, h1, h2, h3, h4⟩ := h
    rw [show p + 1 + 3 = p + 4 by omega] at h2 h3 h4
    rw [show p + 4 + 4 = p + 8 by omega] at h3 h4
    rw [show p + 8 + 8 = p + 16 by omega] at h4
    have e1 := bytesAt_at h1 (by rw [le_length]; omega)
    have e2 := bytesAt_at h2 (by rw [le_length]; omega)
    have e3 := bytesAt_at h3 (by rw [le_length]; omega)
    have e4 := bytesAt_at h4 (by omega)
    rw [le_length] at e1 e2 e3
    obtain ⟨ha, hl⟩ := hv
    have v2 : leVal (le 4 bs.length) = bs.length := leVal_le_of_lt (by omega)
    have v3 : leVal (le 8 a) = a := leVal_le_of_lt (by omega)
    simp only [h0, e1, e2, e3, v2, v3, e4]
    rw [int24_le (by omega)]
    cases fault <;> simp [asked]

/-- Executing well-formed instructions none of which fails, then whatever comes after. -/
theorem interpretFrom_layout {buf : Mem} {size fault} (rs : List Req) (left i p : Nat)
    (hv : ∀ r ∈ rs, Req.Valid r) (hl : Layout buf p rs) (hb : p + total rs ≤ bufMax)
    (hf : ∀ j, i ≤ j → j < i + rs.length → fault j = none) :
    interpretFrom buf size fault (rs.length + left) i p =
      (rs.map asked ++ (interpretFrom buf size fault left (i + rs.length) ((p + total rs : Nat) : Int)).1,
       (interpretFrom buf size fault left (i + rs.length) ((p + total rs : Nat) : Int)).2) := by
  induction rs generalizing i p with
  | nil => simp [total]
  | cons r rs ih =>
    obtain ⟨h1, h2⟩ := hl
    simp only [total] at hb
    rw [show (r :: rs).length + left = (rs.length + left) + 1 by simp; omega]
    rw [interpretFrom, hf i (by omega) (by simp), step_at (hv r (by simp)) h1 (by omega)]
    simp only
    rw [← Int.natCast_add, ih (i + 1) (p + r.insnSize) (fun r hr => hv r (by simp [hr])) h2 (by omega)
      (by intro j a b; exact hf j (by omega) (by simp; omega))]
    simp only [List.length_cons, total, List.map_cons, Option.toList, List.cons_append, List.nil_append]
    rw [show i + 1 + rs.length = i + (rs.length + 1) by omega,
      show p + r.insnSize + total rs = p + (r.insnSize + total rs) by omega]

/-- Queue invariant: the queue holds exactly the given requests. -/
structure Holds (q : Queue) (rs : List Req) : Prop where
  num : q.num = rs.length
  size : q.size = total rs
  fits : q.size ≤ bufMax
  valid : ∀ r ∈ rs, Req.Valid r
  layout : Layout q.buf 0 rs

theorem holds_insert {q q' rs r} (h : Holds q rs) (hv : Req.Valid r) (e : insert? q r = some q') :
    Holds q' (rs ++ [r]) := by
  unfold insert? at e
  split at e
  · simp at e
  split at e
  · simp at e
  rename_i h1 h2
  injection e with e
  subst e
  have hs := h.size
  refine ⟨by simp [h.num], by simp [total_append, total, h.size], by simp; omega, ?_, ?_⟩
  · intro x hx
    rcases List.mem_append.mp hx with hx | hx
    · exact h.valid x hx
    · simp at hx; subst hx; exact hv
  · rw [layout_append]
    refine ⟨layout_congr h.valid ?_ h.layout, ?_⟩
    · intro i _ b
      exact (store_out (by omega)).symm
    · simp only [Layout, and_true, Nat.zero_add]
      rw [← h.size]
      exact at_store _ _ _

theorem holds_insertAll {q q' rs rs'} (h : Holds q rs) (hv : ∀ r ∈ rs', Req.Valid r)
    (e : insertAll? q rs' = some q') : Holds q' (rs ++ rs') := by
  induction rs' generalizing q rs with
  | nil => simp [insertAll?] at e; subst e; simpa
  | cons r rs' ih =>
    unfold insertAll? at e
    split at e
    · simp at e
    · rename_i q1 e1
      have := ih (holds_insert h (hv r (by simp)) e1) (fun r hr => hv r (by simp [hr])) e
      simpa using this

theorem insertAll_version {q q' rs} (e : insertAll? q rs = some q') : q'.version = q.version := by
  induction rs generalizing q with
  | nil => simp [insertAll?] at e; subst e; rfl
  | cons r rs ih =>
    unfold insertAll? at e
    split at e
    · simp at e
    · rename_i q1 e1
      rw [ih e]
      unfold insert? at e1
      split at e1
      · simp at e1
      split at e1
      · simp at e1
      · injection e1 with e1; subst e1; rfl

/-- The tool's copy of the queue holds the same requests. -/
theorem fetch_holds {q rs} (h : Holds q rs) (hver : q.version ≤ currVersion) :
    ∃ q', fetch q = (q', ENONE) ∧ Holds q' rs := by
  unfold fetch
  rw [if_neg (by omega)]
  have hs := h.size
  split
  · rename_i h0
    refine ⟨_, rfl, h.num, h.size, h.fits, h.valid, ?_⟩
    refine layout_congr h.valid ?_ h.layout
    intro i _ b; omega
  · rw [if_neg (by have := h.fits; omega)]
    refine ⟨_, rfl, h.num, h.size, h.fits, h.valid, ?_⟩
    refine layout_congr h.valid ?_ h.layout
    intro i _ b; simp; intro; omega

theorem interpret_holds {q rs} (h : Holds q rs) :
    interpret q (fun _ => none) = (rs.map asked, .ok) := by
  have := interpretFrom_layout (buf := q.buf) (size := q.size) (fault := fun _ => none) rs 0 0 0 h.valid
    h.layout (by have := h.size; have := h.fits; omega) (by simp)
  unfold interpret
  rw [h.num]
  simp only [Nat.add_zero, Nat.zero_add] at this
  rw [show (((0 : Nat) : Int)) = 0 from rfl] at this
  rw [this]
  simp [interpretFrom, h.size]

theorem toolRun_holds {q rs} (h : Holds q rs) (hver : q.version ≤ currVersion) :
    toolRun q (fun _ => none) =
      (rs.map (Effect.ev ∘ asked) ++ [.setSize 0, .setNum 0], some ENONE) := by
  obtain ⟨q', e, h'⟩ := fetch_holds h hver
  unfold toolRun
  rw [e]
  simp [interpret_holds h']

theorem apply_events (p : Proc) (rs : List Req) :
    applyEffects p (rs.map (Effect.ev ∘ asked)) = { p with mem := perform p.mem rs } := by
  induction rs generalizing p with
  | nil => rfl
  | cons r rs ih =>
    cases r with
    | print s =>
      have := ih p
      simpa [applyEffects, Effect.apply, Event.apply, asked, perform] using this
    | write a bs =>
      have := ih { p with mem := p.mem.store a bs }
      simpa [applyEffects, Effect.apply, Event.apply, asked, perform] using this

/-! ### crash points -/

/-- A change split into changes of single bytes, in address order. -/
def Effect.bytes : Effect → List Effect
  | .ev (.write a bs) => bs.zipIdx.map fun (b, i) => .ev (.write (a + i) [b])
  | e => [e]

/-- Addresses a request writes to. -/
def touches (r : Req) (i : Nat) : Prop :=
  match r with
  | .print _ => False
  | .write a bs => a ≤ i ∧ i < a + bs.length

theorem perform_out {m : Mem} {rs i} (h : ∀ r ∈ rs, ¬ touches r i) : perform m rs i = m i := by
  induction rs generalizing m with
  | nil => rfl
  | cons r rs ih =>
    have h1 := h r (by simp)
    cases r with
    | print s => exact ih (fun r hr => h r (by simp [hr]))
    | write a bs =>
      simp only [perform]
      rw [ih (fun r hr => h r (by simp [hr])), store_out]
      simp only [touches] at h1; omega

theorem perform_congr {m m' : Mem} {rs} {i : Nat}
    (h : (∀ r ∈ rs, ¬ touches r i) → m i = m' i) : perform m rs i = perform m' rs i := by
  induction rs generalizing m m' with
  | nil => exact h (by simp)
  | cons r rs ih =>
    cases r with
    | print s => exact ih (fun hh => h (by simpa [touches] using hh))
    | write a bs =>
      apply ih
      intro hh
      by_cases ht : a ≤ i ∧ i < a + bs.length
      · simp [Mem.store, ht]
      · rw [store_out (by omega), store_out (by omega)]
        apply h
        intro r hr
        rcases List.mem_cons.mp hr with rfl | hr
        · exact ht
        · exact hh r hr

/-- Performing everything again after any change confined to the touched bytes. -/
theorem perform_again {m m' : Mem} {rs} (h : ∀ i, (∀ r ∈ rs, ¬ touches r i) → m' i = m i) :
    perform m' rs = perform m rs :=
  funext fun i => perform_congr (h i)

/-- An effect that only writes to bytes touched by some request. -/
def Inside (rs : List Req) : Effect → Prop
  | .ev (.write a bs) => ∀ i, a ≤ i → i < a + bs.length → ∃ r ∈ rs, touches r i
  | .ev (.print _) => True
  | _ => False

theorem apply_inside {rs es} (h : ∀ e ∈ es, Inside rs e) (p : Proc) :
    (applyEffects p es).q = p.q ∧
    ∀ i, (∀ r ∈ rs, ¬ touches r i) → (applyEffects p es).mem i = p.mem i := by
  induction es generalizing p with
  | nil => exact ⟨rfl, fun _ _ => rfl⟩
  | cons e es ih =>
    have he := h e (by simp)
    obtain ⟨h1, h2⟩ := ih (fun e he => h e (by simp [he])) (Effect.apply p e)
    refine ⟨h1.trans ?_, fun i hi => (h2 i hi).trans ?_⟩
    · rcases e with ⟨⟨_⟩ | ⟨_⟩ | ⟨_⟩⟩ | _ | _ <;> simp_all [Inside, Effect.apply]
    · rcases e with ⟨s⟩ | _ | _
      · rcases s with s | ⟨a, bs⟩ | _
        · simp [Effect.apply, Event.apply]
        · simp only [Effect.apply, Event.apply]
          apply store_out
          apply Classical.byContradiction
          intro hc
          obtain ⟨r, hr, ht⟩ := he i (by omega) (by omega)
          exact hi r hr ht
        · simp [Inside] at he
      · simp [Inside] at he
      · simp [Inside] at he

theorem inside_bytes {rs : List Req} :
    ∀ e ∈ (rs.map (Effect.ev ∘ asked)).flatMap Effect.bytes, Inside rs e := by
  intro e he
  simp only [List.mem_flatMap, List.mem_map, Function.comp] at he
  obtain ⟨x, ⟨r, hr, rfl⟩, he⟩ := he
  cases r with
  | print s => simp [asked, Effect.bytes] at he; subst he; trivial
  | write a bs =>
    simp only [asked, Effect.bytes, List.mem_map] at he
    obtain ⟨⟨b, j⟩, hj, rfl⟩ := he
    intro i h1 h2
    refine ⟨_, hr, ?_⟩
    have := (List.mem_zipIdx hj).2.1
    simp only [List.length_singleton] at h2
    simp only [touches]; omega

theorem store_bytes (m : Mem) (a : Nat) (bs : List UInt8) (n : Nat) :
    (bs.zipIdx n).foldl (fun m (x : UInt8 × Nat) => Mem.store m (a + x.2) [x.1]) m = m.store (a + n) bs := by
  induction bs generalizing m n with
  | nil => simp [store_nil]
  | cons b bs ih =>
    simp only [List.zipIdx_cons, List.foldl_cons]
    rw [ih]
    have := store_append m (a + n) [b] bs
    simp only [List.singleton_append, List.length_singleton] at this
    rw [this]; rfl

theorem apply_bytes (p : Proc) (e : Effect) : applyEffects p e.bytes = e.apply p := by
  rcases e with ⟨s⟩ | _ | _
  · rcases s with s | ⟨a, bs⟩ | _
    · rfl
    · have h : ∀ (l : List (UInt8 × Nat)) (p : Proc),
          applyEffects p (l.map fun x => Effect.ev (.write (a + x.2) [x.1])) =
          { p with mem := l.foldl (fun m (x : UInt8 × Nat) => Mem.store m (a + x.2) [x.1]) p.mem } := by
        intro l
        induction l with
        | nil => intro p; rfl
        | cons x xs ih =>
          intro p
          simp only [List.map_cons, applyEffects, List.foldl_cons, Effect.apply, Event.apply]
          exact ih _
      simp only [Effect.bytes, Effect.apply, Event.apply]
      rw [h, store_bytes]; rfl
    · rfl
  · rfl
  · rfl

theorem apply_flatMap_bytes (p : Proc) (es : List Effect) :
    applyEffects p (es.flatMap Effect.bytes) = applyEffects p es := by
  induction es generalizing p with
  | nil => rfl
  | cons e es ih =>
    simp only [List.flatMap_cons, applyEffects, List.foldl_append, List.foldl_cons]
    have := apply_bytes p e
    unfold applyEffects at this ih
    rw [this, ih]

end Verif.InsnQueue
