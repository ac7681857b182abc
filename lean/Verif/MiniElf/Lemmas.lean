import Verif.MiniElf.Spec

namespace Verif.MiniElf

open Spec

/-- A header as read. -/
def hdr (f : Bytes) (pos : Nat) : Buf := ((f.drop pos).take 64).map some

theorem hdr_length {f : Bytes} {pos : Nat} (h : pos + 64 ≤ f.length) : (hdr f pos).length = 64 := by
  simp only [hdr, List.length_map, List.length_take, List.length_drop]; omega

theorem num_of_Num {f : Bytes} {off n v : Nat} (h : Num f off n v) : num f off n = v := by
  rw [num, h.1, leVal_le_of_lt h.2]

theorem Num_le {f : Bytes} {off n v : Nat} (h : Num f off n v) (hn : 0 < n) : off + n ≤ f.length := by
  have := congrArg List.length h.1
  rw [le_length, List.length_take, List.length_drop] at this
  omega

theorem nextShdr_64 {f : Bytes} {pos : Nat} {b : Buf} (h : pos + 64 ≤ f.length) (hb : b.length = 64) :
    nextShdr f 64 pos b = .ok (some (hdr f pos)) := by
  have hl : ((f.drop pos).take 64).length = 64 := by rw [List.length_take, List.length_drop]; omega
  unfold nextShdr
  simp only [hl]
  rw [if_neg (by omega), if_neg (by simp), show b.drop 64 = [] from List.drop_of_length_le (by omega), List.append_nil]
  rfl

theorem filterMap_some (l : Bytes) : (l.map some).filterMap id = l := by
  induction l with
  | nil => rfl
  | cons a l ih => simp [ih]

theorem field_hdr {f : Bytes} {pos off n : Nat} (h : pos + 64 ≤ f.length) (ho : off + n ≤ 64) :
    field (hdr f pos) off n = some (num f (pos + off) n) := by
  have e : ((hdr f pos).drop off).take n = ((f.drop (pos + off)).take n).map some := by
    unfold hdr
    rw [← List.map_drop, ← List.map_take, List.drop_take, List.take_take, List.drop_drop, Nat.min_eq_left (by omega)]
  unfold field
  simp only [e]
  rw [if_pos, filterMap_some]
  · rfl
  · refine ⟨?_, by rw [List.all_map]; simp⟩
    rw [List.length_map, List.length_take, List.length_drop]
    omega

theorem getShdrLoop_64 {f : Bytes} {b : Buf} (hb : b.length = 64) {k index pos : Nat} (hi : index < k) (h : pos + 64 * k ≤ f.length) :
    getShdrLoop f 64 k index pos b = .ok (some (hdr f (pos + 64 * index)), pos + 64 * (index + 1)) := by
  induction k generalizing index pos b with
  | zero => omega
  | succ k ih =>
    simp only [getShdrLoop]
    rw [nextShdr_64 (by omega) hb]
    simp only
    by_cases h0 : index = 0
    · subst h0; rfl
    · rw [if_neg h0, ih (hdr_length (by omega)) (by omega) (by omega), show pos + 64 + 64 * (index - 1) = pos + 64 * index by omega,
        show pos + 64 + 64 * (index - 1 + 1) = pos + 64 * (index + 1) by omega]

theorem getShdrLoop_64_out {f : Bytes} {b : Buf} (hb : b.length = 64) {k index pos : Nat} (hi : k ≤ index) (h : pos + 64 * k ≤ f.length) :
    getShdrLoop f 64 k index pos b = .ok (none, pos + 64 * k) := by
  induction k generalizing index pos b with
  | zero => rfl
  | succ k ih =>
    simp only [getShdrLoop]
    rw [nextShdr_64 (by omega) hb]
    simp only
    rw [if_neg (by omega), ih (hdr_length (by omega)) (by omega) (by omega), show pos + 64 + 64 * k = pos + 64 * (k + 1) by omega]

/-- A terminated string in a table. -/
def StrAt (b : Buf) (p : Nat) (t : Str) : Prop := ∀ i (h : i < (t ++ [0]).length), b[p + i]? = some (some (t ++ [0])[i])

theorem strcmpAt_eq {b : Buf} {name t : Str} (hn : 0 ∉ name) (ht : 0 ∉ t) {p : Nat} (h : StrAt b p t) :
    strcmpAt b name p = .ok (decide (name = t)) := by
  induction name generalizing t p with
  | nil =>
    have h0 := h 0 (by simp)
    rw [Nat.add_zero] at h0
    simp only [strcmpAt, h0]
    cases t with
    | nil => rfl
    | cons c t =>
      have : c ≠ 0 := fun hc => ht (by simp [hc])
      simp [this]
  | cons d name ih =>
    have h0 := h 0 (by simp)
    rw [Nat.add_zero] at h0
    simp only [strcmpAt, h0]
    cases t with
    | nil =>
      have : ¬ (0 : UInt8) = d := fun hc => hn (by simp [← hc])
      simp [this]
    | cons c t =>
      simp only [List.cons_append, List.getElem_cons_zero]
      by_cases hc : c = d
      · subst hc
        rw [if_pos rfl, ih (fun hm => hn (List.mem_cons_of_mem _ hm)) (fun hm => ht (List.mem_cons_of_mem _ hm)) (t := t)]
        · simp
        · intro i hi
          have := h (i + 1) (by simpa using hi)
          rw [show p + (i + 1) = p + 1 + i by omega] at this
          simpa using this
      · rw [if_neg hc]
        have : ¬ d = c := fun e => hc e.symm
        simp [this]

theorem strcmpAt_safe {b : Buf} (name : Str) {p q : Nat} (hpq : p ≤ q) (hq : b[q]? = some (some 0)) (hi : ∀ i < q, ∃ c, b[i]? = some (some c))
    (hn : 0 ∉ name) : strcmpAt b name p ≠ .ub := by
  induction name generalizing p with
  | nil =>
    have : ∃ c, b[p]? = some (some c) := by
      rcases Nat.lt_or_eq_of_le hpq with h | h
      · exact hi p h
      · exact ⟨0, h ▸ hq⟩
    obtain ⟨c, hc⟩ := this
    simp [strcmpAt, hc]
  | cons d name ih =>
    have hd : (0 : UInt8) ≠ d := fun h => hn (by simp [h])
    rcases Nat.lt_or_eq_of_le hpq with h | h
    · obtain ⟨c, hc⟩ := hi p h
      simp only [strcmpAt, hc]
      split
      · exact ih (by omega) (fun hm => hn (List.mem_cons_of_mem _ hm))
      · simp
    · subst h
      simp only [strcmpAt, hq]
      rw [if_neg hd]
      simp

theorem byNameLoop_eq {f : Bytes} {name : Str} {strtbl : Buf} (hn : 0 ∉ name) (secs : List Sec) {pos : Nat} {b : Buf} (hb : b.length = 64)
    (hl : pos + 64 * secs.length ≤ f.length)
    (h : ∀ i s, secs[i]? = some s → StrAt strtbl (num f (pos + 64 * i) 4) s.name ∧ 0 ∉ s.name) :
    (∀ s, First secs name s → ∃ i pos', secs[i]? = some s ∧
      byNameLoop f 64 name strtbl secs.length pos b = .ok (some (hdr f (pos + 64 * i)), pos')) ∧
    ((∀ s ∈ secs, s.name ≠ name) → ∃ pos', byNameLoop f 64 name strtbl secs.length pos b = .ok (none, pos')) := by
  induction secs generalizing pos b with
  | nil =>
    refine ⟨?_, fun _ => ⟨_, rfl⟩⟩
    rintro s ⟨pre, post, h1, -⟩
    exact absurd h1.symm (by simp)
  | cons a secs ih =>
    simp only [List.length_cons] at hl
    obtain ⟨ha, ha0⟩ := h 0 a rfl
    have e : byNameLoop f 64 name strtbl (a :: secs).length pos b =
        if name = a.name then .ok (some (hdr f pos), pos + 64) else byNameLoop f 64 name strtbl secs.length (pos + 64) (hdr f pos) := by
      simp only [List.length_cons, byNameLoop]
      rw [nextShdr_64 (by omega) hb]
      simp only [field_hdr (show pos + 64 ≤ f.length by omega) (show 0 + 4 ≤ 64 by omega)]
      rw [show pos + 0 = pos + 64 * 0 by omega, strcmpAt_eq hn ha0 ha]
      by_cases hc : name = a.name
      · simp only [hc, decide_true, if_true]
      · simp only [hc, decide_false, if_false]
    obtain ⟨i1, i2⟩ := ih (pos := pos + 64) (b := hdr f pos) (hdr_length (by omega)) (by omega) (fun i s hs => by
      have := h (i + 1) s (by simpa using hs)
      rwa [show pos + 64 * (i + 1) = pos + 64 + 64 * i by omega] at this)
    rw [e]
    refine ⟨?_, ?_⟩
    · rintro s ⟨pre, post, h1, h2, h3⟩
      cases pre with
      | nil =>
        simp only [List.nil_append, List.cons.injEq] at h1
        obtain ⟨rfl, -⟩ := h1
        exact ⟨0, pos + 64, rfl, by rw [if_pos h2.symm]; rfl⟩
      | cons x pre =>
        simp only [List.cons_append, List.cons.injEq] at h1
        obtain ⟨rfl, h1⟩ := h1
        obtain ⟨i, pos', h4, h5⟩ := i1 s ⟨pre, post, h1, h2, fun y hy => h3 y (List.mem_cons_of_mem _ hy)⟩
        refine ⟨i + 1, pos', by simpa using h4, ?_⟩
        rw [if_neg (fun hc => h3 a (by simp) hc.symm), h5, show pos + 64 + 64 * i = pos + 64 * (i + 1) by omega]
    · intro hall
      rw [if_neg (fun hc => hall a (by simp) hc.symm)]
      exact i2 (fun s hs => hall s (List.mem_cons_of_mem _ hs))

/-- What the string table is in memory. -/
def tbl (f : Bytes) (off size : Nat) : Buf :=
  ((f.drop off).take size).map some ++ List.replicate (strtblMax - ((f.drop off).take size).length) none

theorem tbl_get {f : Bytes} {off size i : Nat} (h : off + size ≤ f.length) (hi : i < size) : (tbl f off size)[i]? = some f[off + i]? := by
  have hl : ((f.drop off).take size).length = size := by rw [List.length_take, List.length_drop]; omega
  unfold tbl
  rw [List.getElem?_append_left (by rw [List.length_map, hl]; exact hi), List.getElem?_map, List.getElem?_take_of_lt hi, List.getElem?_drop,
    List.getElem?_eq_getElem (by omega)]
  rfl

theorem strAt_tbl {f : Bytes} {off size p : Nat} {t : Str} (h : off + size ≤ f.length) (hp : p + t.length < size)
    (ht : (f.drop (off + p)).take (t.length + 1) = t ++ [0]) : StrAt (tbl f off size) p t := by
  intro i hi
  have hi' : i < t.length + 1 := by simpa using hi
  rw [tbl_get h (by omega)]
  have : (t ++ [0])[i]? = f[off + p + i]? := by
    rw [← ht, List.getElem?_take_of_lt hi', List.getElem?_drop]
  rw [← Nat.add_assoc, ← this, List.getElem?_eq_getElem hi]

/-- Reading of the headers of a file. -/
theorem isElf_parse {f : Bytes} {secs : List Sec} {stroff strsize : Nat} (h : IsElf f secs stroff strsize) :
    ∃ shoff strndx, parseEhdr f = some ⟨shoff, 64, secs.length, strndx⟩ ∧ shoff < 2 ^ 63 ∧ shoff + 64 * secs.length ≤ f.length ∧
      (∃ s, secs[strndx]? = some s ∧ s.offset = stroff ∧ s.size = strsize) ∧
      ∀ i s, secs[i]? = some s → ∃ p, Num f (shoff + 64 * i) 4 p ∧ Num f (shoff + 64 * i + 24) 8 s.offset ∧
      Num f (shoff + 64 * i + 32) 8 s.size ∧
      p + s.name.length < strsize ∧ (f.drop (stroff + p)).take (s.name.length + 1) = s.name ++ [0] ∧ 0 ∉ s.name := by
  obtain ⟨shoff, strndx, h1, h2, h3, h4, h5, h6, h7⟩ := h.header
  refine ⟨shoff, strndx, ?_, ?_, h5, h6, h7⟩
  · unfold parseEhdr
    have := Num_le h4 (by omega)
    rw [if_neg (by omega), if_neg (by simp [h.magic]), num_of_Num h1, num_of_Num h2, num_of_Num h3, num_of_Num h4]
  · have := h.length; omega

theorem hdr_offset {f : Bytes} {shoff i : Nat} {s : Sec} (hl : shoff + 64 * i + 64 ≤ f.length) (h : Num f (shoff + 64 * i + 24) 8 s.offset) :
    field (hdr f (shoff + 64 * i)) 24 8 = some s.offset := by
  rw [field_hdr hl (by omega), num_of_Num h]

theorem hdr_size {f : Bytes} {shoff i : Nat} {s : Sec} (hl : shoff + 64 * i + 64 ≤ f.length) (h : Num f (shoff + 64 * i + 32) 8 s.size) :
    field (hdr f (shoff + 64 * i)) 32 8 = some s.size := by
  rw [field_hdr hl (by omega), num_of_Num h]

theorem lt_of_getElem? {α} {l : List α} {i : Nat} {a : α} (h : l[i]? = some a) : i < l.length := by
  rw [List.getElem?_eq_some_iff] at h
  exact h.1

theorem loadStrtbl_elf {f : Bytes} {secs : List Sec} {stroff strsize : Nat} (h : IsElf f secs stroff strsize) (hs : strsize ≤ 0x500)
    {e : Ehdr} (he : parseEhdr f = some e) (pos : Nat) : ∃ pos', loadStrtbl f e pos = .ok (tbl f stroff strsize, pos') := by
  obtain ⟨shoff, strndx, h1, h2, h3, ⟨s, h4, h5, h6⟩, h7⟩ := isElf_parse h
  obtain rfl : e = _ := Option.some.inj (he.symm.trans h1)
  obtain ⟨p, -, n2, n3, -⟩ := h7 _ _ h4
  have hlt := lt_of_getElem? h4
  have hoff : stroff < 2 ^ 63 := by have := h.strtab; have := h.length; omega
  refine ⟨stroff + ((f.drop stroff).take strsize).length, ?_⟩
  unfold loadStrtbl getShdr
  simp only [seek, if_pos h2]
  rw [getShdrLoop_64 (by simp) hlt h3]
  simp only [hdr_size (s := s) (show shoff + 64 * strndx + 64 ≤ f.length by omega) n3, hdr_offset (s := s) (show shoff + 64 * strndx + 64 ≤ f.length by omega) n2]
  rw [if_neg (by unfold strtblMax; omega), h5, h6, if_pos hoff]
  rfl

theorem byName_elf {f : Bytes} {secs : List Sec} {stroff strsize : Nat} (h : IsElf f secs stroff strsize)
    {e : Ehdr} (he : parseEhdr f = some e) (pos : Nat) {name : Str} (hn : 0 ∉ name) :
    (∀ s, First secs name s → ∃ b pos', byName f e name (tbl f stroff strsize) pos = .ok (some b, pos') ∧
      field b 24 8 = some s.offset ∧ field b 32 8 = some s.size) ∧
    ((∀ s ∈ secs, s.name ≠ name) → ∃ pos', byName f e name (tbl f stroff strsize) pos = .ok (none, pos')) := by
  obtain ⟨shoff, strndx, h1, h2, h3, -, h7⟩ := isElf_parse h
  obtain rfl : e = _ := Option.some.inj (he.symm.trans h1)
  have key := byNameLoop_eq (f := f) (strtbl := tbl f stroff strsize) hn secs (pos := shoff) (b := List.replicate 64 none) (by simp) h3
    (fun i s hi => by
      obtain ⟨p, n1, -, -, n4, n5, n6⟩ := h7 i s hi
      refine ⟨?_, n6⟩
      rw [num_of_Num n1]
      exact strAt_tbl h.strtab n4 n5)
  unfold byName
  simp only [seek, if_pos h2]
  refine ⟨fun s hs => ?_, key.2⟩
  obtain ⟨i, pos', h8, h9⟩ := key.1 s hs
  obtain ⟨p, -, n2, n3, -⟩ := h7 i s h8
  have hlt := lt_of_getElem? h8
  exact ⟨_, pos', h9, hdr_offset (by omega) n2, hdr_size (by omega) n3⟩

end Verif.MiniElf
