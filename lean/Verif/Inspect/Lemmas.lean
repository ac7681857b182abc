import Verif.Inspect.Spec
import Verif.SymLoad.Props

namespace Verif.Inspect

open Spec

theorem readable_sub {p : Proc} {a n b k : Nat} (h : Readable p a n) (h1 : a ≤ b) (h2 : b + k ≤ a + n) : Readable p b k := by
  intro i hi
  have := h (b - a + i) (by omega)
  rwa [show a + (b - a + i) = b + i by omega] at this

theorem readMem_ok {p : Proc} {a n : Nat} (h : Readable p a n) : readMem p a n = some (p.mem.load a n) := by
  unfold readMem
  rw [if_pos]
  rw [List.all_eq_true]
  intro i hi
  exact h i (List.mem_range.mp hi)

theorem load_drop_take (m : Mem) (a : Nat) {off n k : Nat} (h : off + n ≤ k) : ((m.load a k).drop off).take n = m.load (a + off) n := by
  have e : m.load a k = m.load a off ++ (m.load (a + off) n ++ m.load (a + off + n) (k - off - n)) := by
    rw [← load_append, ← load_append]
    congr 1
    omega
  rw [e, List.drop_left' (load_length ..), List.take_left' (load_length ..)]

theorem num_load {p : Proc} {a off n v k : Nat} (h : Num p (a + off) n v) (hk : off + n ≤ k) : num (p.mem.load a k) off n = v := by
  unfold num
  rw [load_drop_take _ _ hk, h.1, leVal_le_of_lt h.2]

/-! ### Auxiliary vector -/

theorem auxLoop_ok {l : List (Nat × Nat)} (hl : ∀ x ∈ l, x.1 ≠ 0 ∧ x.1 < 2 ^ 64 ∧ x.2 < 2 ^ 64) (end_ : Nat) (rest : Bytes) (x : Aux) :
    ∃ y, auxLoop (l.flatMap (fun x => le 8 x.1 ++ le 8 x.2) ++ (le 8 0 ++ le 8 end_) ++ rest) x = some y ∧
      (∀ e, (x.entry = e ∨ (9, e) ∈ l) → (∀ v, (9, v) ∈ l → v = e) → y.entry = e) ∧
      (∀ e, (x.phdr = e ∨ (3, e) ∈ l) → (∀ v, (3, v) ∈ l → v = e) → y.phdr = e) ∧
      (∀ e, (x.phnum = e ∨ (5, e) ∈ l) → (∀ v, (5, v) ∈ l → v = e) → y.phnum = e) ∧
      (∀ e, (x.phent = e ∨ (4, e) ∈ l) → (∀ v, (4, v) ∈ l → v = e) → y.phent = e) := by
  induction l generalizing x with
  | nil =>
    rw [auxLoop]
    have e0 : num (List.flatMap (fun x : Nat × Nat => le 8 x.1 ++ le 8 x.2) [] ++ (le 8 0 ++ le 8 end_) ++ rest) 0 8 = 0 := by
      unfold num
      rw [List.flatMap_nil, List.nil_append, List.drop_zero, List.append_assoc, List.take_left' (le_length ..)]
      exact leVal_le_of_lt (by decide)
    rw [dif_neg (by simp; omega)]
    simp only [e0]
    refine ⟨_, rfl, ?_⟩
    simp
  | cons a l ih =>
    obtain ⟨t, v⟩ := a
    obtain ⟨ht, htl, hvl⟩ := hl (t, v) (by simp)
    simp only at ht htl hvl
    have e0 : ∀ r : Bytes, num (le 8 t ++ (le 8 v ++ r)) 0 8 = t := by
      intro r
      unfold num
      rw [List.drop_zero, List.take_left' (le_length ..)]
      exact leVal_le_of_lt (by simpa using htl)
    have e1 : ∀ r : Bytes, num (le 8 t ++ (le 8 v ++ r)) 8 8 = v := by
      intro r
      unfold num
      rw [List.drop_left' (le_length ..), List.take_left' (le_length ..)]
      exact leVal_le_of_lt (by simpa using hvl)
    have e2 : ∀ r : Bytes, (le 8 t ++ (le 8 v ++ r)).drop 16 = r := by
      intro r
      rw [← List.append_assoc, List.drop_left' (by simp)]
    rw [auxLoop]
    simp only [List.flatMap_cons, List.append_assoc]
    rw [dif_neg (by simp; omega)]
    simp only [e0, e1, e2]
    rw [if_neg ht]
    have hl' : ∀ x ∈ l, x.1 ≠ 0 ∧ x.1 < 2 ^ 64 ∧ x.2 < 2 ^ 64 := fun x hx => hl x (List.mem_cons_of_mem _ hx)
    generalize hx1 : (if t = 9 then ({ x with entry := v } : Aux) else if t = 3 then { x with phdr := v } else if t = 5 then { x with phnum := v }
      else if t = 4 then { x with phent := v } else x) = x1
    obtain ⟨y, h1, h2, h3, h4, h5⟩ := ih hl' x1
    simp only [List.append_assoc] at h1
    refine ⟨y, h1, ?_, ?_, ?_, ?_⟩
    · intro e he hu
      refine h2 e ?_ (fun w hw => hu w (List.mem_cons_of_mem _ hw))
      by_cases h9 : t = 9
      · subst h9
        left; rw [← hx1, if_pos rfl]; exact hu v (by simp)
      · rcases he with he | he
        · left; rw [← hx1, if_neg h9]; repeat' split
          all_goals exact he
        · right
          rcases List.mem_cons.mp he with he | he
          · exact absurd (congrArg Prod.fst he).symm h9
          · exact he
    · intro e he hu
      refine h3 e ?_ (fun w hw => hu w (List.mem_cons_of_mem _ hw))
      by_cases h9 : t = 3
      · subst h9
        left; rw [← hx1, if_neg (by decide), if_pos rfl]; exact hu v (by simp)
      · rcases he with he | he
        · left; rw [← hx1]; split
          · exact he
          · repeat' split
            all_goals first | exact he | exact absurd ‹_› h9
        · right
          rcases List.mem_cons.mp he with he | he
          · exact absurd (congrArg Prod.fst he).symm h9
          · exact he
    · intro e he hu
      refine h4 e ?_ (fun w hw => hu w (List.mem_cons_of_mem _ hw))
      by_cases h9 : t = 5
      · subst h9
        left; rw [← hx1, if_neg (by decide), if_neg (by decide), if_pos rfl]; exact hu v (by simp)
      · rcases he with he | he
        · left; rw [← hx1]; split
          · exact he
          · split
            · exact he
            · repeat' split
              all_goals first | exact he | exact absurd ‹_› h9
        · right
          rcases List.mem_cons.mp he with he | he
          · exact absurd (congrArg Prod.fst he).symm h9
          · exact he
    · intro e he hu
      refine h5 e ?_ (fun w hw => hu w (List.mem_cons_of_mem _ hw))
      by_cases h9 : t = 4
      · subst h9
        left; rw [← hx1, if_neg (by decide), if_neg (by decide), if_neg (by decide), if_pos rfl]; exact hu v (by simp)
      · rcases he with he | he
        · left; rw [← hx1]; split
          · exact he
          · split
            · exact he
            · split
              · exact he
              · repeat' split
                all_goals first | exact he | exact absurd ‹_› h9
        · right
          rcases List.mem_cons.mp he with he | he
          · exact absurd (congrArg Prod.fst he).symm h9
          · exact he

/-! ### Program headers and dynamic section -/

theorem phdrs_head {p : Proc} {a : Nat} {x : Nat × Nat} {l : List (Nat × Nat)} (h : Phdrs p a (x :: l)) :
    Readable p a 56 ∧ num (p.mem.load a 56) 0 4 = x.1 ∧ num (p.mem.load a 56) 16 8 = x.2 ∧ Phdrs p (a + 56) l := by
  obtain ⟨h1, h2⟩ := h
  rw [List.length_cons] at h1
  obtain ⟨n1, n2⟩ := h2 0 x rfl
  refine ⟨readable_sub h1 (by omega) (by omega), num_load (by simpa using n1) (by omega), num_load (by simpa using n2) (by omega),
    readable_sub h1 (by omega) (by omega), ?_⟩
  intro i y hy
  have := h2 (i + 1) y (by simpa using hy)
  rwa [show a + 56 * (i + 1) = a + 56 + 56 * i by omega] at this

theorem phdrLoop_ok {p : Proc} {l : List (Nat × Nat)} {a : Nat} (h : Phdrs p a l) (pt ad : Nat) :
    ∃ pt' ad', phdrLoop p l.length a pt ad = some (pt', ad') ∧
      (∀ e, (pt = e ∨ (6, e) ∈ l) → (∀ v, (6, v) ∈ l → v = e) → pt' = e) ∧
      (∀ e, (ad = e ∨ (2, e) ∈ l) → (∀ v, (2, v) ∈ l → v = e) → ad' = e) := by
  induction l generalizing a pt ad with
  | nil => exact ⟨pt, ad, rfl, by simp, by simp⟩
  | cons x l ih =>
    obtain ⟨t, v⟩ := x
    obtain ⟨r1, n1, n2, ht⟩ := phdrs_head h
    simp only [List.length_cons, phdrLoop]
    rw [readMem_ok r1]
    simp only [n1, n2]
    by_cases h6 : t = 6
    · subst h6
      rw [if_pos rfl]
      obtain ⟨pt', ad', e1, e2, e3⟩ := ih ht v ad
      refine ⟨pt', ad', e1, ?_, ?_⟩
      · intro e _ hu
        exact e2 e (Or.inl (hu v (by simp))) (fun w hw => hu w (List.mem_cons_of_mem _ hw))
      · intro e he hu
        refine e3 e ?_ (fun w hw => hu w (List.mem_cons_of_mem _ hw))
        simpa using he
    · rw [if_neg h6]
      by_cases h2 : t = 2
      · subst h2
        rw [if_pos rfl]
        obtain ⟨pt', ad', e1, e2, e3⟩ := ih ht pt v
        refine ⟨pt', ad', e1, ?_, ?_⟩
        · intro e he hu
          refine e2 e ?_ (fun w hw => hu w (List.mem_cons_of_mem _ hw))
          simpa using he
        · intro e _ hu
          exact e3 e (Or.inl (hu v (by simp))) (fun w hw => hu w (List.mem_cons_of_mem _ hw))
      · rw [if_neg h2]
        obtain ⟨pt', ad', e1, e2, e3⟩ := ih ht pt ad
        refine ⟨pt', ad', e1, ?_, ?_⟩
        · intro e he hu
          refine e2 e ?_ (fun w hw => hu w (List.mem_cons_of_mem _ hw))
          rcases he with he | he
          · exact Or.inl he
          · rcases List.mem_cons.mp he with he | he
            · exact absurd (congrArg Prod.fst he).symm h6
            · exact Or.inr he
        · intro e he hu
          refine e3 e ?_ (fun w hw => hu w (List.mem_cons_of_mem _ hw))
          rcases he with he | he
          · exact Or.inl he
          · rcases List.mem_cons.mp he with he | he
            · exact absurd (congrArg Prod.fst he).symm h2
            · exact Or.inr he

theorem dynamic_head {p : Proc} {a : Nat} {x : Nat × Nat} {l : List (Nat × Nat)} (h : Dynamic p a (x :: l)) :
    x.1 ≠ 0 ∧ Readable p a 16 ∧ num (p.mem.load a 16) 0 8 = x.1 ∧ num (p.mem.load a 16) 8 8 = x.2 ∧ Dynamic p (a + 16) l := by
  obtain ⟨h0, h1, hz, h2⟩ := h
  rw [List.length_cons] at h1 hz
  obtain ⟨n1, n2⟩ := h2 0 x rfl
  refine ⟨h0 x (by simp), readable_sub h1 (by omega) (by omega), num_load (by simpa using n1) (by omega), num_load (by simpa using n2) (by omega),
    fun y hy => h0 y (List.mem_cons_of_mem _ hy), readable_sub h1 (by omega) (by omega), ?_, ?_⟩
  · rwa [show a + 16 + 16 * l.length = a + 16 * (l.length + 1) by omega]
  · intro i y hy
    have := h2 (i + 1) y (by simpa using hy)
    rwa [show a + 16 * (i + 1) = a + 16 + 16 * i by omega] at this

theorem dynamic_end {p : Proc} {a : Nat} (h : Dynamic p a []) : Readable p a 16 ∧ num (p.mem.load a 16) 0 8 = 0 := by
  obtain ⟨-, h1, hz, -⟩ := h
  exact ⟨by simpa using h1, num_load (by simpa using hz) (by omega)⟩

theorem debugLoop_ok {p : Proc} {l : List (Nat × Nat)} {a v : Nat} (h : Dynamic p a l) (hv : (21, v) ∈ l) (hu : ∀ w, (21, w) ∈ l → w = v)
    {fuel : Nat} (hf : l.length ≤ fuel) : debugLoop p fuel a = some (.ok v) := by
  induction l generalizing a fuel with
  | nil => simp at hv
  | cons x l ih =>
    obtain ⟨t, w⟩ := x
    obtain ⟨h0, r1, n1, n2, ht⟩ := dynamic_head h
    simp only at h0 n1 n2
    cases fuel with
    | zero => simp at hf
    | succ fuel =>
      simp only [debugLoop]
      rw [readMem_ok r1]
      simp only [n1, n2]
      rw [if_neg h0]
      by_cases h21 : t = 21
      · subst h21
        rw [if_pos rfl, hu w (by simp)]
      · rw [if_neg h21]
        refine ih ht ?_ (fun w' hw => hu w' (List.mem_cons_of_mem _ hw)) (by simpa using hf)
        rcases List.mem_cons.mp hv with he | he
        · exact absurd (congrArg Prod.fst he).symm h21
        · exact he

/-- A variable set by a loop: it has the value already, or will get it. -/
def Due (l : List (Nat × Nat)) (key val cur : Nat) : Prop := (cur = val ∨ (key, val) ∈ l) ∧ ∀ v, (key, v) ∈ l → v = val

theorem Due.next {t w : Nat} {l : List (Nat × Nat)} {key val cur : Nat} (h : Due ((t, w) :: l) key val cur) : Due l key val (if t = key then w else cur) := by
  obtain ⟨h1, h2⟩ := h
  refine ⟨?_, fun v hv => h2 v (List.mem_cons_of_mem _ hv)⟩
  by_cases hk : t = key
  · subst hk
    rw [if_pos rfl]
    exact Or.inl (h2 w (by simp))
  · rw [if_neg hk]
    rcases h1 with h1 | h1
    · exact Or.inl h1
    · rcases List.mem_cons.mp h1 with he | he
      · exact absurd (congrArg Prod.fst he).symm hk
      · exact Or.inr he

theorem Due.ne {t w : Nat} {l : List (Nat × Nat)} {key val cur : Nat} (h : Due ((t, w) :: l) key val cur)
    (hc : cur = 0 ∨ cur = val) : (if t = key then w else cur) = 0 ∨ (if t = key then w else cur) = val := by
  by_cases hk : t = key
  · subst hk
    rw [if_pos rfl]
    exact Or.inr (h.2 w (by simp))
  · rw [if_neg hk]; exact hc

theorem dynLoop_ok {p : Proc} {l : List (Nat × Nat)} {a s t h s0 t0 h0 : Nat} (hd : Dynamic p a l) (ds : Due l 6 s s0) (dt : Due l 5 t t0) (dh : Due l 4 h h0)
    (cs : s0 = 0 ∨ s0 = s) (ct : t0 = 0 ∨ t0 = t) (ch : h0 = 0 ∨ h0 = h) (hs : s ≠ 0) (ht : t ≠ 0) (hh : h ≠ 0) {fuel : Nat} (hf : l.length < fuel) :
    dynLoop p fuel a s0 t0 h0 = some (some (s, t, h, true)) := by
  induction l generalizing a fuel s0 t0 h0 with
  | nil =>
    obtain ⟨r1, n1⟩ := dynamic_end hd
    cases fuel with
    | zero => simp at hf
    | succ fuel =>
      have a1 : s0 = s := by simpa [Due] using ds
      have a2 : t0 = t := by simpa [Due] using dt
      have a3 : h0 = h := by simpa [Due] using dh
      simp only [dynLoop]
      rw [readMem_ok r1]
      simp only [n1]
      rw [if_neg (show ¬ (0 : Nat) = 6 by decide), if_neg (show ¬ (0 : Nat) = 5 by decide), if_neg (show ¬ (0 : Nat) = 4 by decide), a1, a2, a3, if_pos ⟨hs, ht, hh⟩]
  | cons x l ih =>
    obtain ⟨k, w⟩ := x
    obtain ⟨hk0, r1, n1, n2, htl⟩ := dynamic_head hd
    simp only at hk0 n1 n2
    cases fuel with
    | zero => simp at hf
    | succ fuel =>
      have b1 := ds.next
      have b2 := dt.next
      have b3 := dh.next
      have c1 := ds.ne cs
      have c2 := dt.ne ct
      have c3 := dh.ne ch
      simp only [dynLoop]
      rw [readMem_ok r1]
      simp only [n1, n2]
      generalize (if k = 6 then w else s0) = s1 at *
      generalize (if k = 5 then w else t0) = t1 at *
      generalize (if k = 4 then w else h0) = h1 at *
      by_cases hall : s1 ≠ 0 ∧ t1 ≠ 0 ∧ h1 ≠ 0
      · rw [if_pos hall]
        obtain rfl := c1.resolve_left hall.1
        obtain rfl := c2.resolve_left hall.2.1
        obtain rfl := c3.resolve_left hall.2.2
        rfl
      · rw [if_neg hall, if_neg hk0]
        exact ih htl b1 b2 b3 c1 c2 c3 (by simpa using hf)

theorem dynLoop_no_hash {p : Proc} {l : List (Nat × Nat)} {a s0 t0 : Nat} (hd : Dynamic p a l) (hn : ∀ v, (4, v) ∉ l) {fuel : Nat} (hf : l.length < fuel) :
    ∃ s t, dynLoop p fuel a s0 t0 0 = some (some (s, t, 0, false)) := by
  induction l generalizing a fuel s0 t0 with
  | nil =>
    obtain ⟨r1, n1⟩ := dynamic_end hd
    cases fuel with
    | zero => simp at hf
    | succ fuel =>
      simp only [dynLoop]
      rw [readMem_ok r1]
      simp only [n1]
      rw [if_neg (show ¬ (0 : Nat) = 6 by decide), if_neg (show ¬ (0 : Nat) = 5 by decide), if_neg (show ¬ (0 : Nat) = 4 by decide), if_neg (by simp)]
      exact ⟨_, _, rfl⟩
  | cons x l ih =>
    obtain ⟨k, w⟩ := x
    obtain ⟨hk0, r1, n1, n2, htl⟩ := dynamic_head hd
    simp only at hk0 n1 n2
    have hk4 : k ≠ 4 := fun h => hn w (by simp [h])
    cases fuel with
    | zero => simp at hf
    | succ fuel =>
      simp only [dynLoop]
      rw [readMem_ok r1]
      simp only [n1, n2]
      rw [if_neg hk4, if_neg (show ¬ (_ ∧ _ ∧ (0 : Nat) ≠ 0) by simp), if_neg hk0]
      exact ih htl (fun v hv => hn v (List.mem_cons_of_mem _ hv)) (by simpa using hf)

theorem objLoop_none {p : Proc} {bias fuel : Nat} {l : List (Nat × Nat)} {a : Nat} (h : Phdrs p a l) (hn : 2 ∉ l.map (·.1)) (s t v : Nat) (ran : Bool) :
    objLoop p bias fuel l.length a s t v ran = some (some (s, t, v)) := by
  induction l generalizing a with
  | nil => rfl
  | cons x l ih =>
    obtain ⟨r1, n1, n2, ht⟩ := phdrs_head h
    rw [List.map_cons, List.mem_cons, not_or] at hn
    simp only [List.length_cons, objLoop]
    rw [readMem_ok r1]
    simp only [n1]
    rw [if_neg (fun hc => hn.1 hc.1.symm)]
    exact ih ht hn.2

theorem objLoop_one {p : Proc} {bias fuel adyn : Nat} {l : List (Nat × Nat)} {a : Nat} (h : Phdrs p a l) (ho : Only l 2 adyn) (hc : (l.map (·.1)).count 2 = 1)
    {s t v : Nat} {r : Bool} (hd : dynLoop p fuel (wrap (bias + adyn)) 0 0 0 = some (some (s, t, v, r))) :
    objLoop p bias fuel l.length a 0 0 0 false = some (some (s, t, v)) := by
  induction l generalizing a with
  | nil => simp at hc
  | cons x l ih =>
    obtain ⟨k, w⟩ := x
    obtain ⟨r1, n1, n2, ht⟩ := phdrs_head h
    simp only at n1 n2
    simp only [List.length_cons, objLoop]
    rw [readMem_ok r1]
    simp only [n1, n2]
    by_cases hk : k = 2
    · subst hk
      rw [if_pos (by simp), ho.2 w (by simp), hd]
      simp only
      refine objLoop_none ht ?_ s t v r
      rw [← List.count_eq_zero]
      simpa using hc
    · rw [if_neg (by simp [hk])]
      have hc' : (l.map (·.1)).count 2 = 1 := by
        rw [List.map_cons, List.count_cons_of_ne hk] at hc
        exact hc
      refine ih ht ⟨?_, fun y hy => ho.2 y (List.mem_cons_of_mem _ hy)⟩ hc'
      rcases List.mem_cons.mp ho.1 with he | he
      · exact absurd (congrArg Prod.fst he).symm hk
      · exact he

theorem wrap_lt {a : Nat} (h : a < 2 ^ 64) : wrap a = a := Nat.mod_eq_of_lt h

theorem Num_lt {p : Proc} {a n v : Nat} (h : Num p a n v) : v < 256 ^ n := h.2

/-- Headers of an object that is loaded. -/
theorem parseHeaders_loop {p : Proc} {o : Obj} {dyn : List (Nat × Nat)} (h : Loaded p o dyn) {fuel s t v : Nat} {r : Bool}
    (hd : ∀ a, Dynamic p a dyn → dynLoop p fuel a 0 0 0 = some (some (s, t, v, r))) :
    parseHeaders p o.map fuel = if v ≠ 0 then match readMem p (wrap (v + 4)) 4 with
        | none => some (.error ETARGETHOOK)
        | some b => some (.ok ⟨s, t, if num b 0 4 < 2 ^ 31 then num b 0 4 else 0⟩)
      else some (.ok ⟨s, t, 0⟩) := by
  obtain ⟨phoff, phs, adyn, n1, n2, hlt, hph, ho, hc, hlt', hdyn⟩ := h.headers
  unfold parseHeaders
  rw [if_neg h.name, if_pos h.bias]
  simp only
  rw [readMem_ok (by simpa using h.ehdr)]
  simp only [num_load h.entsize (show 54 + 2 ≤ 64 by omega), num_load n1 (show 32 + 8 ≤ 64 by omega), num_load n2 (show 56 + 2 ≤ 64 by omega)]
  rw [if_neg (by simp), wrap_lt hlt, objLoop_one hph ho hc (s := s) (t := t) (v := v) (r := r) (by rw [wrap_lt hlt']; exact hd _ hdyn)]
  rfl

/-! ### Symbols -/

theorem pre_start {m : Mem} {a : Nat} {s : Str} (h : Ptrace.HoldsString m a s) : m.load a 5 = pre ↔ pre <+: s := by
  obtain ⟨h1, h2⟩ := h
  have h3 : m.load a (s ++ [0]).length = s ++ [0] := h1
  by_cases hl : 5 ≤ s.length
  · have e : m.load a 5 = s.take 5 := by
      have := load_drop_take m a (off := 0) (n := 5) (k := (s ++ [0]).length) (by simp; omega)
      rw [h3, List.drop_zero, Nat.add_zero, List.take_append_of_le_length hl] at this
      exact this.symm
    rw [e]
    constructor
    · intro h; rw [← h]; exact List.take_prefix ..
    · rintro ⟨t, rfl⟩; exact List.take_left' rfl
  · constructor
    · intro h
      exfalso
      have hm : (0 : UInt8) ∈ m.load a 5 := by
        have := load_drop_take m a (off := 0) (n := (s ++ [0]).length) (k := 5) (by simp; omega)
        rw [Nat.add_zero, h3, List.drop_zero] at this
        have hz : (0 : UInt8) ∈ (m.load a 5).take (s ++ [0]).length := by rw [this]; simp
        exact List.mem_of_mem_take hz
      rw [h] at hm
      exact absurd hm (by decide)
    · intro h
      have := h.length_le
      simp [pre] at this
      omega

theorem holds_suffix {m : Mem} {a : Nat} {s : Str} (h : Ptrace.HoldsString m a (pre ++ s)) : Ptrace.HoldsString m (a + 5) s := by
  obtain ⟨h1, h2⟩ := h
  refine ⟨?_, fun hm => h2 (List.mem_append_right _ hm)⟩
  rw [List.append_assoc, at_append] at h1
  exact h1.2

theorem suffixes_short : ∀ s ∈ suffixes, s.length < 64 := by decide +kernel
theorem suffixes_nodup : suffixes.Nodup := by decide +kernel
theorem suffixes_length : suffixes.length = 11 := by decide +kernel

/-- What is read of the name of a symbol of libpulp is found among the names iff it is that name. -/
theorem read_suffix {p : Proc} {a : Nat} {s : Str} (h : HasStr p a (pre ++ s)) {buf : Bytes} (hb : buf.length = 64) :
    ∃ buf', Ptrace.readStringAllocated p.readable p.mem (a + 5) buf = .ok buf' ∧ buf'.length = 64 ∧ suffixes.idxOf? (Ptrace.cstr buf') = suffixes.idxOf? s := by
  have hs := holds_suffix h.1
  have hr := h.2
  rw [List.length_append, show pre.length = 5 by rfl] at hr
  by_cases hl : s.length < 64
  · obtain ⟨buf', h1, h2, h3⟩ := Ptrace.C10_read_string_allocated_partial (readable := p.readable) hs
      (fun i hi => readable_sub hr (b := a + 5) (k := s.length + 16) (by omega) (by omega) i (by omega)) buf (by omega)
    exact ⟨buf', h1, by omega, by rw [h2]⟩
  · obtain ⟨h1, h2⟩ := Ptrace.C10_allocated_too_long_unterminated (readable := p.readable) hs buf (by omega)
      (fun i hi => readable_sub hr (b := a + 5) (k := s.length + 16) (by omega) (by omega) i (by omega))
    refine ⟨_, h1, by rw [List.length_take]; omega, ?_⟩
    have hn1 : Ptrace.cstr (s.take buf.length) ∉ suffixes := by
      intro hm
      have := suffixes_short _ hm
      have e : Ptrace.cstr (s.take buf.length) = s.take buf.length := by
        have hz : ∀ l : Bytes, (0 : UInt8) ∉ l → Ptrace.cstr l = l := by
          intro l hl
          induction l with
          | nil => rfl
          | cons a l ih =>
            rw [List.mem_cons, not_or] at hl
            unfold Ptrace.cstr at *
            rw [List.takeWhile_cons_of_pos (by simpa using fun h : a = 0 => hl.1 h.symm), ih hl.2]
        exact hz _ h2
      rw [e, List.length_take] at this
      omega
    have hn2 : s ∉ suffixes := fun hm => by have := suffixes_short _ hm; omega
    rw [List.idxOf?_eq_none_iff.mpr hn1, List.idxOf?_eq_none_iff.mpr hn2]

/-- What should be found. -/
def spec (bias : Nat) (l : List Symbol) : Syms := suffixes.map fun s => address bias l (pre ++ s)

theorem address_append (bias : Nat) (l : List Symbol) (x : Symbol) (n : Str) : address bias (l ++ [x]) n =
    (address bias l n).or (if x.name = n then some ((bias + x.value) % 2 ^ 64) else none) := by
  unfold address
  rw [List.find?_append]
  cases h : l.find? (fun x => decide (x.name = n)) with
  | some y => rfl
  | none =>
    simp only [Option.none_or, List.find?_cons, List.find?_nil]
    by_cases hx : x.name = n <;> simp [hx]

theorem address_some {bias : Nat} {l : List Symbol} {n : Str} {v : Nat} (h : address bias l n = some v) : ∃ x ∈ l, x.name = n ∧ v = (bias + x.value) % 2 ^ 64 := by
  unfold address at h
  cases hf : l.find? (fun x => decide (x.name = n)) with
  | none => rw [hf] at h; simp at h
  | some y =>
    rw [hf] at h
    exact ⟨y, List.mem_of_find?_eq_some hf, by simpa using List.find?_some hf, (Option.some.inj h).symm⟩

theorem spec_append_other (bias : Nat) (l : List Symbol) {x : Symbol} (h : ∀ s ∈ suffixes, x.name ≠ pre ++ s) : spec bias (l ++ [x]) = spec bias l := by
  unfold spec
  refine List.map_congr_left fun s hs => ?_
  rw [address_append, if_neg (h s hs), Option.or_none]

theorem spec_append_hit (bias : Nat) {l : List Symbol} {x : Symbol} {i : Nat} {s : Str} (hi : suffixes[i]? = some s) (hx : x.name = pre ++ s)
    (hu : ∀ y ∈ l, y.name = x.name → y.value = x.value) : spec bias (l ++ [x]) = (spec bias l).set i (some (wrap (bias + x.value))) := by
  apply List.ext_getElem?
  intro j
  rw [List.getElem?_set]
  have hlen : (spec bias l).length = suffixes.length := by simp [spec]
  have hil : i < suffixes.length := by rw [List.getElem?_eq_some_iff] at hi; exact hi.1
  unfold spec at *
  rw [List.getElem?_map, List.getElem?_map]
  by_cases hij : i = j
  · subst hij
    rw [if_pos rfl, if_pos (by rw [List.length_map]; exact hil), hi]
    simp only [Option.map_some]
    rw [address_append, if_pos hx]
    cases ha : address bias l (pre ++ s) with
    | none => rfl
    | some v =>
      obtain ⟨y, hy, hyn, hv⟩ := address_some ha
      rw [hv, hu y hy (by rw [hyn, hx])]
      rfl
  · rw [if_neg hij]
    cases hj : suffixes[j]? with
    | none => rfl
    | some s' =>
      simp only [Option.map_some]
      rw [address_append, if_neg, Option.or_none]
      intro he
      rw [hx] at he
      have he := List.append_cancel_left he
      subst he
      apply hij
      have hnd := suffixes_nodup
      exact (List.getElem?_inj hil hnd).mp (hi.trans hj.symm)

theorem idxOf?_some {l : List Str} {s : Str} {i : Nat} (h : l.idxOf? s = some i) : l[i]? = some s := by
  induction l generalizing i with
  | nil => simp at h
  | cons a l ih =>
    rw [List.idxOf?_cons] at h
    split at h
    · rename_i he
      obtain rfl := Option.some.inj h
      have : a = s := by simpa using he
      simp [this]
    · cases hl : l.idxOf? s with
      | none => rw [hl] at h; simp at h
      | some j =>
        rw [hl] at h
        obtain rfl : j + 1 = i := by simpa using h
        simpa using ih hl

theorem spec_full {bias : Nat} {l : List Symbol} (h : (spec bias l).all (·.isSome) = true) (l' : List Symbol) : spec bias (l ++ l') = spec bias l := by
  unfold spec at *
  refine List.map_congr_left fun s hs => ?_
  rw [List.all_map, List.all_eq_true] at h
  have hsome := h s hs
  simp only [Function.comp] at hsome
  obtain ⟨v, hv⟩ := Option.isSome_iff_exists.mp hsome
  unfold address at *
  rw [List.find?_append]
  cases hf : l.find? (fun x => decide (x.name = pre ++ s)) with
  | none => rw [hf] at hv; simp at hv
  | some y => rfl

theorem symLoop_prefix {p : Proc} {bias dynstr : Nat} {all : List Symbol} (hu : Unambiguous all) (l done : List Symbol) (hall : all = done ++ l) {dynsym : Nat} (r : Nat)
    (hlt : dynsym + 24 * l.length < 2 ^ 64) (hr : Readable p dynsym (24 * l.length))
    (h : ∀ i x, l[i]? = some x → ∃ off, Num p (dynsym + 24 * i) 4 off ∧ Num p (dynsym + 24 * i + 8) 8 x.value ∧
      dynstr + off + 16 < 2 ^ 64 ∧ HasStr p (dynstr + off) x.name) {buf : Bytes} (hb : buf.length = 64) :
    ∃ buf', buf'.length = 64 ∧ (symLoop p bias dynstr (l.length + r) dynsym buf (spec bias done) = (spec bias all, false) ∧ (spec bias all).all (·.isSome) = true ∨
      symLoop p bias dynstr (l.length + r) dynsym buf (spec bias done) = symLoop p bias dynstr r (dynsym + 24 * l.length) buf' (spec bias all)) := by
  induction l generalizing done dynsym buf with
  | nil => exact ⟨buf, hb, Or.inr (by simp [hall])⟩
  | cons x l ih =>
    rw [List.length_cons] at hlt hr
    obtain ⟨off, n1, n2, hso, hstr⟩ := h 0 x rfl
    simp only [Nat.mul_zero, Nat.add_zero] at n1 n2
    have hnext : ∀ i y, l[i]? = some y → ∃ off, Num p (dynsym + 24 + 24 * i) 4 off ∧ Num p (dynsym + 24 + 24 * i + 8) 8 y.value ∧
      dynstr + off + 16 < 2 ^ 64 ∧ HasStr p (dynstr + off) y.name := by
      intro i y hy
      have := h (i + 1) y (by simpa using hy)
      rwa [show dynsym + 24 * (i + 1) = dynsym + 24 + 24 * i by omega] at this
    have hcont : ∀ (done' : List Symbol) (buf' : Bytes), all = done' ++ l → buf'.length = 64 →
        ∃ buf'', buf''.length = 64 ∧ ((if (spec bias done').all (·.isSome) then (spec bias done', false) else
            symLoop p bias dynstr (l.length + r) (wrap (dynsym + 24)) buf' (spec bias done')) = (spec bias all, false) ∧ (spec bias all).all (·.isSome) = true ∨
          (if (spec bias done').all (·.isSome) then (spec bias done', false) else
            symLoop p bias dynstr (l.length + r) (wrap (dynsym + 24)) buf' (spec bias done')) =
              symLoop p bias dynstr r (dynsym + 24 * (l.length + 1)) buf'' (spec bias all)) := by
      intro done' buf' ha hb'
      split
      · rename_i hfull
        refine ⟨buf', hb', Or.inl ?_⟩
        rw [ha, spec_full hfull]
        exact ⟨rfl, hfull⟩
      · rw [wrap_lt (by omega), show dynsym + 24 * (l.length + 1) = dynsym + 24 + 24 * l.length by omega]
        exact ih done' ha (by omega) (readable_sub hr (by omega) (by omega)) hnext hb'
    have hrs := hstr.2
    rw [List.length_cons, show l.length + 1 + r = l.length + r + 1 by omega]
    simp only [symLoop]
    rw [readMem_ok (readable_sub hr (by omega) (by omega))]
    have hnm : num (p.mem.load dynsym 4) 0 4 = off := num_load (by simpa using n1) (by omega)
    simp only [hnm]
    rw [wrap_lt (by omega), readMem_ok (readable_sub hrs (by omega) (by omega))]
    have hbl : (p.mem.load (dynstr + off) 5 ++ buf.drop 5).length = 64 := by simp [hb]
    simp only
    by_cases hpre : pre <+: x.name
    · rw [if_pos ((pre_start hstr.1).mpr hpre), wrap_lt (by omega)]
      obtain ⟨s, hs⟩ := hpre
      obtain ⟨buf', h1, h2, h3⟩ := read_suffix (by rw [hs]; exact hstr) hbl
      simp only [h1]
      rw [readMem_ok (readable_sub hr (by omega) (by omega))]
      simp only [h3, num_load n2 (show 8 + 8 ≤ 24 by omega)]
      cases hi : suffixes.idxOf? s with
      | none =>
        have hns := List.idxOf?_eq_none_iff.mp hi
        have e : spec bias (done ++ [x]) = spec bias done := spec_append_other bias done (fun s' hs' he => by
          rw [← hs] at he
          exact hns (List.append_cancel_left he ▸ hs'))
        have := hcont (done ++ [x]) buf' (by rw [hall]; simp) h2
        rw [e] at this
        exact this
      | some i =>
        have e := spec_append_hit bias (l := done) (x := x) (idxOf?_some hi) hs.symm (fun y hy hyn => hu y (by rw [hall]; simp [hy]) x (by rw [hall]; simp) hyn)
        have := hcont (done ++ [x]) buf' (by rw [hall]; simp) h2
        rw [e] at this
        exact this
    · rw [if_neg (fun hc => hpre ((pre_start hstr.1).mp hc))]
      have e : spec bias (done ++ [x]) = spec bias done := spec_append_other bias done (fun s' _ he => hpre ⟨s', he.symm⟩)
      have := hcont (done ++ [x]) _ (by rw [hall]; simp) hbl
      rw [e] at this
      exact this

theorem symLoop_ok {p : Proc} {bias dynstr : Nat} {l : List Symbol} (hu : Unambiguous l) {dynsym : Nat}
    (hlt : dynsym + 24 * l.length < 2 ^ 64) (hr : Readable p dynsym (24 * l.length))
    (h : ∀ i x, l[i]? = some x → ∃ off, Num p (dynsym + 24 * i) 4 off ∧ Num p (dynsym + 24 * i + 8) 8 x.value ∧
      dynstr + off + 16 < 2 ^ 64 ∧ HasStr p (dynstr + off) x.name) {buf : Bytes} (hb : buf.length = 64) :
    symLoop p bias dynstr l.length dynsym buf (spec bias []) = (spec bias l, false) := by
  obtain ⟨buf', -, h1 | h1⟩ := symLoop_prefix (bias := bias) hu l [] rfl 0 hlt hr h hb
  · exact h1.1
  · exact h1

theorem spec_nil (bias : Nat) : spec bias [] = List.replicate 11 none := by
  have : ∀ s, address bias [] (pre ++ s) = none := fun _ => rfl
  unfold spec
  simp only [this]
  decide +kernel

theorem libpulpSymbols_ok {p : Proc} {bias : Nat} {t : Tables} {l : List Symbol} (hu : Unambiguous l) (h : HasSymbols p t l) :
    libpulpSymbols p bias t = spec bias l := by
  obtain ⟨h1, h2, h3, h4, h5, h6⟩ := h
  unfold libpulpSymbols
  cases l with
  | nil => rw [if_pos (by simp [h1]), spec_nil]
  | cons x l =>
    rw [if_neg (by simp [h1, h2, h3]), ← spec_nil bias, h1, symLoop_ok hu h4 h5 h6 (by simp)]

theorem objSyms_ok {p : Proc} {o : Obj} {l : List Symbol} (hu : Unambiguous l) (h : WithSymbols p o l) :
    ∃ N, ∀ fuel, N ≤ fuel → objSyms p o fuel = some (spec o.map.addr l) := by
  obtain ⟨dyn, t, hash, h1, h2, h3, h4, h5, h6, h7, h8, h9, h10⟩ := h.image
  refine ⟨dyn.length + 1, fun fuel hf => ?_⟩
  unfold objSyms
  rw [parseHeaders_loop h1 (s := t.dynsym) (t := t.dynstr) (v := hash) (r := true) (fun a ha =>
    dynLoop_ok ha ⟨Or.inr h2.1, h2.2⟩ ⟨Or.inr h3.1, h3.2⟩ ⟨Or.inr h4.1, h4.2⟩ (Or.inl rfl) (Or.inl rfl) (Or.inl rfl) h10.2.1 h10.2.2.1 h5 (by omega)), if_pos h5,
    wrap_lt (by omega), readMem_ok (by simpa using h7)]
  have hn : num (p.mem.load (hash + 4) 4) 0 4 = l.length := num_load (by simpa using h8) (by omega)
  simp only [hn]
  rw [if_pos h9]
  have ht : (⟨t.dynsym, t.dynstr, l.length⟩ : Tables) = t := by rw [← h10.1]
  rw [ht, libpulpSymbols_ok hu h10]

/-! ### Objects -/

theorem readLinkMap_ok {p : Proc} {a : Nat} {l : LinkMap} (h : Readable p a 40) (h1 : Num p a 8 l.addr) (h2 : Num p (a + 8) 8 l.name) (h3 : Num p (a + 24) 8 l.next) :
    readLinkMap p a = some l := by
  unfold readLinkMap
  rw [readMem_ok (by simpa using h)]
  simp only [Option.map_some, num_load (show Num p (a + 0) 8 l.addr from h1) (show 0 + 8 ≤ 40 by omega), num_load h2 (show 8 + 8 ≤ 40 by omega),
    num_load h3 (show 24 + 8 ≤ 40 by omega)]

theorem libsLoop_ok {p : Proc} {a : Nat} {os : List Obj} (h : Chain p a os) (acc : List Obj) :
    ∃ N, ∀ fuel, N ≤ fuel → libsLoop p fuel a acc = some (os.reverse ++ acc) := by
  induction h generalizing acc with
  | nil =>
    refine ⟨1, fun fuel hf => ?_⟩
    obtain ⟨k, rfl⟩ : ∃ k, fuel = k + 1 := ⟨fuel - 1, by omega⟩
    simp [libsLoop]
  | @cons a o os h0 h1 h2 h3 h4 h5 _ ih =>
    obtain ⟨N, hN⟩ := ih (o :: acc)
    refine ⟨N + 1 + o.name.length, fun fuel hf => ?_⟩
    obtain ⟨k, rfl⟩ : ∃ k, fuel = k + 1 := ⟨fuel - 1, by omega⟩
    simp only [libsLoop]
    rw [if_neg h0, readLinkMap_ok h1 h2 h3 h4]
    obtain ⟨buf, h6, h7⟩ := Ptrace.C10_read_string_partial (readable := p.readable) h5.1
      (fun i hi => h5.2 i (by omega)) (k + 1) (by omega)
    simp only [h6, h7]
    have := hN k (by omega)
    simp only [List.reverse_cons, List.append_assoc, List.singleton_append]
    exact this

theorem strstr_mentions (o : Obj) : SymLoad.strstr o.name pulpName = true ↔ Mentions o := by
  rw [SymLoad.strstr_iff]
  unfold Mentions
  rw [show "libpulp.so".toUTF8.toList = pulpName by decide +kernel]

theorem otherLoop_ok {p : Proc} {s : Obj → Syms} (os : List Obj) (h : ∀ o ∈ os, Mentions o → ∃ N, ∀ fuel, N ≤ fuel → objSyms p o fuel = some (s o)) :
    ∃ N, ∀ fuel, N ≤ fuel → ∀ best, otherLoop p fuel os best =
      some ((os.filter (fun o => SymLoad.strstr o.name pulpName && complete (s o))).foldl (fun _ o => (o, s o)) best) := by
  induction os with
  | nil => exact ⟨0, fun _ _ _ => rfl⟩
  | cons o os ih =>
    obtain ⟨N, hN⟩ := ih (fun x hx => h x (List.mem_cons_of_mem _ hx))
    by_cases hm : SymLoad.strstr o.name pulpName = true
    · obtain ⟨M, hM⟩ := h o (by simp) ((strstr_mentions o).mp hm)
      refine ⟨N + M, fun fuel hf best => ?_⟩
      simp only [otherLoop]
      rw [if_pos hm, hM fuel (by omega)]
      simp only [hN fuel (by omega), List.filter_cons, hm, Bool.true_and]
      by_cases hc : complete (s o) = true
      · rw [if_pos hc, if_pos hc, List.foldl_cons]
      · rw [if_neg hc, if_neg hc]
    · refine ⟨N, fun fuel hf best => ?_⟩
      simp only [otherLoop]
      rw [if_neg hm, hN fuel hf, List.filter_cons, if_neg (by simp [hm])]

theorem foldl_last {s : Obj → Syms} (l : List Obj) (o : Obj) (best : Obj × Syms) (h : ∀ x ∈ l, x = o) (hb : l = [] → best = (o, s o)) :
    l.foldl (fun _ o => (o, s o)) best = (o, s o) := by
  induction l generalizing best with
  | nil => exact hb rfl
  | cons x l ih =>
    rw [List.foldl_cons]
    have hx := h x (by simp)
    subst hx
    exact ih _ (fun y hy => h y (List.mem_cons_of_mem _ hy)) (fun _ => rfl)

end Verif.Inspect
