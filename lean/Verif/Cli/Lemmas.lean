import Verif.Cli.Spec

/-! Lemmas about the reading of command lines. -/

namespace Verif.Cli

open Spec

/-- What the tables of options have in common. -/
structure TableOk (t : List Opt) : Prop where
  nodup : t.Nodup
  long : ∀ o ∈ t, ∀ o' ∈ t, o.long = o'.long → o = o'
  short : ∀ o ∈ t, ∀ o' ∈ t, o.short = o'.short → o.short.isSome → o = o'
  dash : ∀ o ∈ t, o.short ≠ some 45
  eq : ∀ o ∈ t, 61 ∉ o.long

instance (t : List Opt) : Decidable (TableOk t) :=
  decidable_of_iff (t.Nodup ∧ (∀ o ∈ t, ∀ o' ∈ t, o.long = o'.long → o = o') ∧
    (∀ o ∈ t, ∀ o' ∈ t, o.short = o'.short → o.short.isSome → o = o') ∧ (∀ o ∈ t, o.short ≠ some 45) ∧ (∀ o ∈ t, 61 ∉ o.long))
    ⟨fun h => ⟨h.1, h.2.1, h.2.2.1, h.2.2.2.1, h.2.2.2.2⟩, fun h => ⟨h.1, h.2, h.3, h.4, h.5⟩⟩

set_option maxRecDepth 4000 in
theorem options_ok (stack : Bool) (c : Option Cmd) : TableOk (options stack c) := by
  cases c with
  | none => cases stack <;> decide +kernel
  | some c => cases stack <;> cases c <;> decide +kernel

/-! ### Finding an option -/

theorem find_of_unique {α : Type} (p : α → Bool) (t : List α) (o : α) (hm : o ∈ t) (hp : p o = true)
    (hu : ∀ o' ∈ t, p o' = true → o' = o) : t.find? p = some o := by
  cases h : t.find? p with
  | none => exact absurd hp (by simpa using List.find?_eq_none.1 h o hm)
  | some x => rw [hu x (List.mem_of_find?_eq_some h) (List.find?_some h)]

theorem filter_of_unique {α : Type} (p : α → Bool) (t : List α) (o : α) (hn : t.Nodup) (hm : o ∈ t) (hp : p o = true)
    (hu : ∀ o' ∈ t, p o' = true → o' = o) : t.filter p = [o] := by
  have hf : (t.filter p).Nodup := hn.filter _
  have ha : ∀ x ∈ t.filter p, x = o := fun x hx => hu x (List.mem_filter.1 hx).1 (List.mem_filter.1 hx).2
  have ho : o ∈ t.filter p := List.mem_filter.2 ⟨hm, hp⟩
  generalize t.filter p = l at hf ha ho
  match l, hf, ha, ho with
  | [], _, _, ho => simp at ho
  | [x], _, ha, _ => simp [ha x (by simp)]
  | x :: y :: l, hf, ha, _ =>
    have h1 := ha x (by simp)
    have h2 := ha y (by simp)
    subst h1; subst h2
    simp at hf

theorem findLong_eq (t : List Opt) (ht : TableOk t) (n : Str) (o : Opt) (ho : o ∈ t) (hn : Names t n o) :
    findLong t n = some o := by
  unfold findLong
  rcases hn with rfl | ⟨hp, hu⟩
  · rw [find_of_unique _ t o ho (by simp) (fun o' ho' h => ht.long o' ho' o ho (by simpa using h))]
  · cases h : t.find? (fun o => o.long == n) with
    | some x =>
      have hx := List.find?_some h
      rw [hu x (List.mem_of_find?_eq_some h) (by simp at hx; simp [hx])]
    | none =>
      simp only
      rw [filter_of_unique (fun o => n.isPrefixOf o.long) t o ht.nodup ho (by simpa using hp)
        (fun o' ho' h => hu o' ho' (by simpa using h))]

theorem findLong_none (t : List Opt) (n : Str) (h : ∀ o ∈ t, ¬ Names t n o) : findLong t n = none := by
  unfold findLong
  cases h1 : t.find? (fun o => o.long == n) with
  | some o =>
    have hx := List.find?_some h1
    exact absurd (Or.inl (by simpa using Eq.symm (eq_of_beq hx))) (h o (List.mem_of_find?_eq_some h1))
  | none =>
    simp only
    split
    · rename_i o hf
      exfalso
      have hm : ∀ o', o' ∈ t.filter (fun o => n.isPrefixOf o.long) ↔ o' = o := by rw [hf]; simp
      have ho := (hm o).2 rfl
      rw [List.mem_filter] at ho
      refine h o ho.1 (Or.inr ⟨by simpa using ho.2, fun o' ho' hp => (hm o').1 ?_⟩)
      rw [List.mem_filter]
      exact ⟨ho', by simpa using hp⟩
    · rfl

theorem findShort_eq (t : List Opt) (ht : TableOk t) (o : Opt) (c : UInt8) (ho : o ∈ t) (hc : o.short = some c) :
    t.find? (fun o => o.short == some c) = some o :=
  find_of_unique _ t o ho (by simp [hc]) (fun o' ho' h => by
    have h : o'.short = some c := by simpa using h
    exact ht.short o' ho' o ho (h.trans hc.symm) (by simp [h]))

theorem eq_notin_name (t : List Opt) (ht : TableOk t) (n : Str) (o : Opt) (ho : o ∈ t) (hn : Names t n o) : 61 ∉ n := by
  intro h
  rcases hn with rfl | ⟨hp, _⟩
  · exact ht.eq o ho h
  · exact ht.eq o ho (hp.subset h)

/-! ### Long options -/

theorem takeWhile_append_eq (n v : Str) (h : 61 ∉ n) : (n ++ 61 :: v).takeWhile (· != 61) = n := by
  induction n with
  | nil => simp
  | cons c n ih =>
    simp at h
    have : (c != 61) = true := by simp; exact fun e => h.1 e.symm
    simp [List.takeWhile_cons, this, ih h.2]

theorem dropWhile_append_eq (n v : Str) (h : 61 ∉ n) : (n ++ 61 :: v).dropWhile (· != 61) = 61 :: v := by
  induction n with
  | nil => simp
  | cons c n ih =>
    simp at h
    have : (c != 61) = true := by simp; exact fun e => h.1 e.symm
    simp [List.dropWhile_cons, this, ih h.2]

theorem takeWhile_all (n : Str) (h : 61 ∉ n) : n.takeWhile (· != 61) = n := by
  induction n with
  | nil => simp
  | cons c n ih =>
    simp at h
    have : (c != 61) = true := by simp; exact fun e => h.1 e.symm
    simp [List.takeWhile_cons, this, ih h.2]

theorem longOpt_plain (t : List Opt) (n : Str) (o : Opt) (h61 : 61 ∉ n) (hf : findLong t n = some o) :
    longOpt t n = if o.arg = .required then ([], some o.key) else ([.opt o.key none], none) := by
  simp only [longOpt, takeWhile_all n h61, hf, h61, if_false]
  cases o.arg <;> simp

theorem longOpt_joined (t : List Opt) (n v : Str) (o : Opt) (h61 : 61 ∉ n) (hf : findLong t n = some o) (ha : o.arg ≠ .no) :
    longOpt t (n ++ 61 :: v) = ([.opt o.key (some v)], none) := by
  simp only [longOpt, takeWhile_append_eq n v h61, hf, dropWhile_append_eq n v h61]
  rw [if_pos (by simp)]
  cases h : o.arg <;> simp_all

/-! ### Short options -/

theorem cluster_flags (t : List Opt) (ht : TableOk t) (fs : List Opt) (hf : ∀ o ∈ fs, o ∈ t ∧ o.short.isSome ∧ o.arg = .no)
    (cs : Str) :
    cluster t (fs.filterMap (·.short) ++ cs) =
      ((fs.map fun o => Event.opt o.key none) ++ (cluster t cs).1, (cluster t cs).2) := by
  induction fs with
  | nil => simp
  | cons o fs ih =>
    obtain ⟨ho, hs, ha⟩ := hf o (by simp)
    obtain ⟨c, hc⟩ := Option.isSome_iff_exists.1 hs
    rw [List.filterMap_cons, hc]
    simp only [List.cons_append, cluster, findShort_eq t ht o c ho hc, ha]
    rw [ih (fun o h => hf o (by simp [h]))]
    simp

theorem cluster_value (t : List Opt) (ht : TableOk t) (o : Opt) (ho : o ∈ t) (c : UInt8) (hc : o.short = some c)
    (ha : o.arg = .required) (v : Str) :
    cluster t (c :: v) = if v = [] then ([], some o.key) else ([.opt o.key (some v)], none) := by
  simp only [cluster, findShort_eq t ht o c ho hc, ha, if_true]

/-! ### Words -/

def evs (s : List (Key × Option Str)) : List Event := s.map fun p => .opt p.1 p.2

theorem scan_long (t : List Opt) (n : Str) (hn : n ≠ []) (ws : List Str) :
    scan t none (([45, 45] ++ n) :: ws) = ((longOpt t n).1 ++ (scan t (longOpt t n).2 ws).1, (scan t (longOpt t n).2 ws).2) := by
  rw [scan]
  rw [if_neg (by simpa using hn), if_pos (by simp)]
  simp

theorem scan_short (t : List Opt) (cs : Str) (hn : cs ≠ []) (hd : cs.head? ≠ some 45) (ws : List Str) :
    scan t none (([45] ++ cs) :: ws) = ((cluster t cs).1 ++ (scan t (cluster t cs).2 ws).1, (scan t (cluster t cs).2 ws).2) := by
  cases cs with
  | nil => exact absurd rfl hn
  | cons c cs =>
    rw [scan]
    have hc : c ≠ 45 := by simpa using hd
    rw [if_neg (by simp [hc]), if_neg (by simp [hc]), if_pos (by simp)]
    simp

theorem scan_word (t : List Opt) (w : Str) (hw : w = [45] ∨ w.head? ≠ some 45) (ws : List Str) :
    scan t none (w :: ws) = ((scan t none ws).1, w :: (scan t none ws).2) := by
  rw [scan]
  rcases hw with rfl | hw
  · simp
  · have h1 : w ≠ [45, 45] := by rintro rfl; simp at hw
    have h2 : ¬ w.take 2 = [45, 45] := by
      intro h; apply hw
      cases w with
      | nil => simp at h
      | cons c w => simp at h; simp [h.1]
    have h3 : ¬ (w.take 1 = [45] ∧ w ≠ [45]) := by
      rintro ⟨h, _⟩; apply hw
      cases w with
      | nil => simp at h
      | cons c w => simp at h; simp [h]
    rw [if_neg h1, if_neg h2, if_neg h3]

theorem scan_pending (t : List Opt) (k : Key) (w : Str) (ws : List Str) :
    scan t (some k) (w :: ws) = (.opt k (some w) :: (scan t none ws).1, (scan t none ws).2) := by
  rw [scan]

theorem shorts_head (t : List Opt) (ht : TableOk t) (fs : List Opt) (hf : ∀ o ∈ fs, o ∈ t ∧ o.short.isSome ∧ o.arg = .no)
    (hne : fs ≠ []) (cs : Str) :
    fs.filterMap (·.short) ++ cs ≠ [] ∧ (fs.filterMap (·.short) ++ cs).head? ≠ some 45 := by
  cases fs with
  | nil => exact absurd rfl hne
  | cons o fs =>
    obtain ⟨ho, hs, _⟩ := hf o (by simp)
    obtain ⟨c, hc⟩ := Option.isSome_iff_exists.1 hs
    have : c ≠ 45 := fun e => ht.dash o ho (by rw [hc, e])
    simp [hc, this]

theorem scan_item (t : List Opt) (ht : TableOk t) (i : Item) (hi : i.Ok t) (ws : List Str) :
    scan t none (i.render ++ ws) = (evs i.settings ++ (scan t none ws).1, i.words ++ (scan t none ws).2) := by
  cases i with
  | word w => simpa [Item.render, Item.settings, Item.words, evs] using scan_word t w hi ws
  | long n o v j =>
    obtain ⟨ho, hne, hn, ha⟩ := hi
    have h61 := eq_notin_name t ht n o ho hn
    have hf := findLong_eq t ht n o ho hn
    cases v with
    | none =>
      have hr : o.arg ≠ .required := by rcases ha with h | h | h <;> simp_all
      simp only [Item.render, List.singleton_append]
      rw [scan_long t n hne, longOpt_plain t n o h61 hf, if_neg hr]
      simp [Item.settings, Item.words, evs]
    | some v =>
      have hno : o.arg ≠ .no := by rcases ha with h | h | h <;> simp_all
      cases j with
      | true =>
        simp only [Item.render, List.singleton_append, List.append_assoc]
        rw [scan_long t (n ++ 61 :: v) (by simp), longOpt_joined t n v o h61 hf hno]
        simp [Item.settings, Item.words, evs]
      | false =>
        have hr : o.arg = .required := by rcases ha with h | h | h <;> simp_all
        simp only [Item.render, List.cons_append, List.nil_append]
        have := scan_long t n hne (v :: ws)
        simp only [List.cons_append, List.nil_append] at this
        rw [this, longOpt_plain t n o h61 hf, if_pos hr]
        simp [scan_pending, Item.settings, Item.words, evs]
  | short fs last =>
    obtain ⟨hne, hf, hl⟩ := hi
    cases last with
    | none =>
      have hne : fs ≠ [] := by simpa using hne
      have hh := shorts_head t ht fs hf hne []
      have hc := cluster_flags t ht fs hf []
      simp only [List.append_nil] at hh hc
      have h := scan_short t _ hh.1 hh.2 ws
      rw [hc] at h
      simp only [Item.render, List.cons_append, List.nil_append] at h ⊢
      rw [h]
      simp [Item.settings, Item.words, evs, cluster]
    | some p =>
      obtain ⟨o, v, j⟩ := p
      obtain ⟨ho, hs, ha, hj⟩ := hl o v j rfl
      obtain ⟨c, hc⟩ := Option.isSome_iff_exists.1 hs
      have hd : c ≠ 45 := fun e => ht.dash o ho (by rw [hc, e])
      have hh : ∀ cs, fs.filterMap (·.short) ++ c :: cs ≠ [] ∧ (fs.filterMap (·.short) ++ c :: cs).head? ≠ some 45 := by
        intro cs
        cases hfs : fs with
        | nil => simp [hd]
        | cons o' fs' => rw [← hfs]; exact shorts_head t ht fs hf (by simp [hfs]) _
      cases j with
      | true =>
        have h := scan_short t _ (hh v).1 (hh v).2 ws
        rw [cluster_flags t ht fs hf, cluster_value t ht o ho c hc ha, if_neg (hj rfl)] at h
        simp only [Item.render, hc, Option.toList, List.cons_append, List.nil_append, List.append_assoc] at h ⊢
        rw [h]
        simp [Item.settings, Item.words, evs]
      | false =>
        have h := scan_short t _ (hh []).1 (hh []).2 (v :: ws)
        rw [cluster_flags t ht fs hf, cluster_value t ht o ho c hc ha, if_pos rfl] at h
        simp only [Item.render, hc, Option.toList, List.cons_append, List.nil_append, List.append_assoc] at h ⊢
        rw [h]
        simp [scan_pending, Item.settings, Item.words, evs]

theorem scan_items (t : List Opt) (ht : TableOk t) (is : List Item) (hi : ∀ i ∈ is, i.Ok t) (ws : List Str) :
    scan t none (is.flatMap Item.render ++ ws) =
      (evs (is.flatMap Item.settings) ++ (scan t none ws).1, is.flatMap Item.words ++ (scan t none ws).2) := by
  induction is with
  | nil => simp [evs]
  | cons i is ih =>
    rw [List.flatMap_cons, List.append_assoc, scan_item t ht i (hi i (by simp)), ih (fun i h => hi i (by simp [h]))]
    simp [evs]

theorem scan_line (t : List Opt) (ht : TableOk t) (l : Line) (hl : l.Ok t) :
    scan t none l.render = (evs l.settings, l.words) := by
  unfold Line.render
  rw [scan_items t ht l.items hl]
  cases h : l.rest with
  | none => simp [scan, Line.settings, Line.words, h]
  | some r => simp [scan, Line.settings, Line.words, h]

theorem scan_wrong (t : List Opt) (ht : TableOk t) (ws : List Str) (h : Wrong t ws) : .bad ∈ (scan t none ws).1 := by
  cases h with
  | unknown n v rest hv hne h61 hu =>
    have hx : longOpt t (n ++ v) = ([.bad], none) := by
      have : (n ++ v).takeWhile (· != 61) = n := by
        rcases hv with rfl | hv
        · rw [List.append_nil]; exact takeWhile_all n h61
        · cases v with
          | nil => rw [List.append_nil]; exact takeWhile_all n h61
          | cons c v => simp at hv; subst hv; exact takeWhile_append_eq n v h61
      simp only [longOpt, this, findLong_none t n hu]
    rw [List.append_assoc, scan_long t (n ++ v) (by simp [hne]), hx]
    simp
  | extra n v o rest ho hn ha =>
    have h61 := eq_notin_name t ht n o ho hn
    have hf := findLong_eq t ht n o ho hn
    have hx : longOpt t (n ++ 61 :: v) = ([.bad], none) := by
      simp only [longOpt, takeWhile_append_eq n v h61, hf, dropWhile_append_eq n v h61, ha]
      rw [if_pos (by simp)]
    have e : [45, 45] ++ n ++ [61] ++ v = [45, 45] ++ (n ++ 61 :: v) := by simp
    rw [e, scan_long t (n ++ 61 :: v) (by simp), hx]
    simp
  | missing n o hne ho hn ha =>
    have h61 := eq_notin_name t ht n o ho hn
    have hf := findLong_eq t ht n o ho hn
    rw [scan_long t n hne, longOpt_plain t n o h61 hf, if_pos ha]
    simp [scan]
  | short fs c cs rest hf hc hd =>
    have hh : fs.filterMap (·.short) ++ c :: cs ≠ [] ∧ (fs.filterMap (·.short) ++ c :: cs).head? ≠ some 45 := by
      cases hfs : fs with
      | nil => simp [hd]
      | cons o' fs' => rw [← hfs]; exact shorts_head t ht fs hf (by simp [hfs]) _
    have hn : t.find? (fun o => o.short == some c) = none := by
      rw [List.find?_eq_none]
      intro o ho
      simpa using hc o ho
    rw [List.append_assoc, scan_short t _ hh.1 hh.2, cluster_flags t ht fs hf]
    simp [cluster, hn]
  | shortMissing fs o hf ho hs ha =>
    obtain ⟨c, hc⟩ := Option.isSome_iff_exists.1 hs
    have hd : c ≠ 45 := fun e => ht.dash o ho (by rw [hc, e])
    have hh : fs.filterMap (·.short) ++ [c] ≠ [] ∧ (fs.filterMap (·.short) ++ [c]).head? ≠ some 45 := by
      cases hfs : fs with
      | nil => simp [hd]
      | cons o' fs' => rw [← hfs]; exact shorts_head t ht fs hf (by simp [hfs]) _
    rw [hc, Option.toList_some, List.append_assoc, scan_short t _ hh.1 hh.2, cluster_flags t ht fs hf,
      cluster_value t ht o ho c hc ha]
    simp [scan]

/-! ### The settings -/

/-- Options with a value have one, the others do not. -/
def takesValue : Key → Bool
  | .process | .user | .revertAll | .timeout | .root | .retries | .color | .output | .debuginfo | .livepatch | .target => true
  | _ => false

set_option maxRecDepth 4000 in
theorem options_values (stack : Bool) (c : Option Cmd) : ∀ o ∈ options stack c, takesValue o.key = true → o.arg = .required := by
  cases c with
  | none => cases stack <;> decide +kernel
  | some c => cases stack <;> cases c <;> decide +kernel

def Valued (s : List (Key × Option Str)) : Prop := ∀ p ∈ s, takesValue p.1 = true → p.2.isSome

theorem line_valued (t : List Opt) (hv : ∀ o ∈ t, takesValue o.key = true → o.arg = .required) (l : Line) (hl : l.Ok t) :
    Valued l.settings := by
  intro p hp ht
  simp only [Line.settings, List.mem_flatMap] at hp
  obtain ⟨i, hi, hp⟩ := hp
  have hi := hl i hi
  cases i with
  | word w => simp [Item.settings] at hp
  | long n o v j =>
    obtain ⟨ho, _, _, ha⟩ := hi
    simp [Item.settings] at hp
    subst hp
    have := hv o ho ht
    rcases ha with h | h | h <;> simp_all
  | short fs last =>
    obtain ⟨_, hf, hl⟩ := hi
    have hfs : ∀ o ∈ fs, takesValue o.key = false := by
      intro o ho
      obtain ⟨h1, _, h3⟩ := hf o ho
      cases h : takesValue o.key with
      | false => rfl
      | true => have := hv o h1 h; simp_all
    cases last with
    | none =>
      simp [Item.settings] at hp
      obtain ⟨o, ho, rfl⟩ := hp
      simp [hfs o ho] at ht
    | some q =>
      obtain ⟨o, v, j⟩ := q
      simp [Item.settings] at hp
      rcases hp with ⟨o, ho, rfl⟩ | rfl
      · simp [hfs o ho] at ht
      · simp

theorem optionAll_append (a : Arguments) (xs ys : List Event) :
    optionAll a (xs ++ ys) = match optionAll a xs with | .ok a => optionAll a ys | .error n => .error n := by
  induction xs generalizing a with
  | nil => simp [optionAll]
  | cons x xs ih =>
    simp only [List.cons_append, optionAll]
    cases option a x with
    | ok a => exact ih a
    | error n => rfl

theorem values_append (s s' : List (Key × Option Str)) (k : Key) : values (s ++ s') k = values s k ++ values s' k := by
  simp [values]

theorem given_append (s s' : List (Key × Option Str)) (k : Key) : given (s ++ s') k = (given s k || given s' k) := by
  simp [given]

theorem libraries_append (s s' : List (Key × Option Str)) : libraries (s ++ s') = libraries s ++ libraries s' := by
  simp [libraries]

theorem numbers_append (s s' : List (Key × Option Str)) : Numbers (s ++ s') ↔ Numbers s ∧ Numbers s' := by
  simp only [Numbers, values_append, List.mem_append]
  grind

theorem isNumber_iff (v : Str) : isNumber v = true ↔ v ≠ [] ∧ ∀ c ∈ v, 48 ≤ c ∧ c ≤ 57 := by
  simp [isNumber, isDigit]

/-- One more option. -/
theorem option_wanted (s : List (Key × Option Str)) (k : Key) (v : Option Str) (hv : takesValue k = true → v.isSome)
    (hi : k ≠ .help ∧ k ≠ .usage ∧ k ≠ .version) :
    (Numbers [(k, v)] → option (wanted s none) (.opt k v) = .ok (wanted (s ++ [(k, v)]) none)) ∧
    (¬ Numbers [(k, v)] → option (wanted s none) (.opt k v) = .error usageError) := by
  obtain ⟨h1, h2, h3⟩ := hi
  cases k <;> simp only [takesValue, ne_eq, reduceCtorEq, not_true, not_false_eq_true, forall_const, false_implies] at hv h1 h2 h3
  case retries =>
    obtain ⟨x, rfl⟩ := Option.isSome_iff_exists.1 hv
    refine ⟨fun h => ?_, fun h => ?_⟩
    · have : ¬ atoi x < 1 := by simp [Numbers, values] at h; omega
      simp [option, this, wanted, values, given, libraries, List.filterMap_append, List.any_append]
    · have : atoi x < 1 := by simp [Numbers, values] at h; omega
      simp [option, this]
  case timeout =>
    obtain ⟨x, rfl⟩ := Option.isSome_iff_exists.1 hv
    have hn : Numbers [(Key.timeout, some x)] ↔ isNumber x = true := by
      rw [isNumber_iff]; simp [Numbers, values]
    refine ⟨fun h => ?_, fun h => ?_⟩
    · simp [option, hn.1 h, wanted, values, given, libraries, List.filterMap_append, List.any_append]
    · have : isNumber x = false := by rw [hn] at h; simpa using h
      simp [option, this]
  all_goals
    refine ⟨fun _ => ?_, fun h => absurd ?_ h⟩
    · first
      | (obtain ⟨x, rfl⟩ := Option.isSome_iff_exists.1 hv
         simp [option, wanted, values, given, libraries, List.filterMap_append, List.any_append])
      | simp [option, wanted, values, given, libraries, List.filterMap_append, List.any_append]
    · simp [Numbers, values]

theorem wanted_nil : wanted [] none = {} := by decide +kernel

theorem snoc_induction {α : Type} {P : List α → Prop} (h0 : P []) (h : ∀ l x, P l → P (l ++ [x])) (l : List α) : P l := by
  have : ∀ l : List α, P l.reverse := by
    intro l
    induction l with
    | nil => exact h0
    | cons x l ih => rw [List.reverse_cons]; exact h _ _ ih
  simpa using this l.reverse

theorem optionAll_wanted (s : List (Key × Option Str)) (hv : Valued s) (hi : NoInfo s) :
    (Numbers s → optionAll {} (evs s) = .ok (wanted s none)) ∧ (¬ Numbers s → optionAll {} (evs s) = .error usageError) := by
  revert hv hi
  refine snoc_induction (P := fun s => Valued s → NoInfo s →
    (Numbers s → optionAll {} (evs s) = .ok (wanted s none)) ∧ (¬ Numbers s → optionAll {} (evs s) = .error usageError)) ?_ ?_ s
  · intro _ _
    refine ⟨fun _ => ?_, fun h => absurd (by simp [Numbers, values]) h⟩
    rw [wanted_nil]; rfl
  · intro s p ih hv hi
    have ih := ih (fun q hq => hv q (by simp [hq])) (fun q hq => hi q (by simp [hq]))
    have ho := option_wanted s p.1 p.2 (hv p (by simp)) (hi p (by simp))
    have he : evs (s ++ [p]) = evs s ++ [.opt p.1 p.2] := by simp [evs]
    rw [he, optionAll_append, numbers_append]
    refine ⟨fun h => ?_, fun h => ?_⟩
    · rw [ih.1 h.1]
      simp [optionAll, ho.1 h.2]
    · by_cases h1 : Numbers s
      · rw [ih.1 h1]
        simp [optionAll, ho.2 (fun h2 => h ⟨h1, h2⟩)]
      · rw [ih.2 h1]

/-! ### Commands -/

theorem name_inj (c c' : Cmd) (h : c.name = c'.name) : c = c' := by
  cases c <;> cases c' <;> first | rfl | (exfalso; revert h; decide +kernel)

theorem ofString_name (c : Cmd) : ofString c.name = some c := by cases c <;> decide +kernel

theorem ofString_some (w : Str) (c : Cmd) (h : ofString w = some c) : w = c.name := by
  have := List.find?_some h
  simp at this
  exact this.symm

theorem ofString_none (w : Str) (h : ofString w = none) : ¬ IsCommand w := by
  rintro ⟨c, rfl⟩
  rw [ofString_name] at h
  cases h

theorem ofArgs_skip (ws vs : List Str) (h : ∀ w ∈ ws, ¬ IsCommand w) : ofArgs (ws ++ vs) = ofArgs vs := by
  induction ws with
  | nil => rfl
  | cons w ws ih =>
    rw [List.cons_append, ofArgs]
    cases hw : ofString w with
    | some c => exact absurd ⟨c, ofString_some w c hw⟩ (h w (by simp))
    | none => exact ih (fun w hw => h w (by simp [hw]))

theorem ofArgs_name (c : Cmd) (ws : List Str) : ofArgs (c.name :: ws) = some c := by
  rw [ofArgs, ofString_name]

theorem endOk_iff (s : List (Key × Option Str)) (hv : Valued s) (c : Cmd) (args : List Str) (hlen : args.length ≤ 1) :
    endOk c (wanted s args.head?) (args.length + 1) = true ↔ ¬ (given s .quiet ∧ given s .verbose) ∧ Rules s args c := by
  have hp : (values s .process).getLast?.isSome = given s .process := by
    rw [Bool.eq_iff_iff]
    rw [show ((values s .process).getLast?.isSome = true ↔ values s .process ≠ []) from by
      cases h : values s .process <;> simp [List.getLast?_cons]]
    simp only [values, given, ne_eq, List.filterMap_eq_nil_iff, List.any_eq_true, Classical.not_forall]
    constructor
    · rintro ⟨p, hp, h⟩
      exact ⟨p, hp, by by_cases hk : p.1 = .process <;> simp_all⟩
    · rintro ⟨p, hp, h⟩
      have hk : p.1 = .process := by simpa using h
      have := hv p hp (by rw [hk]; rfl)
      exact ⟨p, hp, by rw [if_pos hk]; cases h : p.2 <;> simp_all⟩
  have hq : (¬ (given s .quiet ∧ given s .verbose)) ↔ (!(given s .quiet && given s .verbose)) = true := by
    cases given s .quiet <;> cases given s .verbose <;> simp
  rw [hq]
  unfold endOk
  rw [Bool.and_eq_true]
  refine and_congr (by rfl) ?_
  cases hl : (libraries s).getLast? with
  | none =>
    match args, hlen with
    | [], _ => cases c <;> simp [Rules, wanted, pathLen, hp, hl]
    | [x], _ => cases c <;> simp [Rules, wanted, pathLen, hp, hl]
  | some lib =>
    match args, hlen with
    | [], _ => cases c <;> simp [Rules, wanted, pathLen, hp, hl] <;> (intros; exact decide_eq_true_iff)
    | [x], _ => cases c <;> simp [Rules, wanted, pathLen, hp, hl] <;> (intros; exact decide_eq_true_iff)

theorem wanted_arg (s : List (Key × Option Str)) (x : Str) : { wanted s none with arg := some x } = wanted s (some x) := rfl

theorem words_wanted (s : List (Key × Option Str)) (hv : Valued s) (hn : Numbers s) (ws : List Str) :
    (∀ c, Correct s ws c → words (wanted s none) ws = .ok (c, wanted s ws.tail.head?)) ∧
    ((∀ c, ¬ Correct s ws c) → words (wanted s none) ws = .error usageError) := by
  constructor
  · rintro c ⟨_, hq, args, rfl, hlen, hr⟩
    have h := (endOk_iff s hv c args hlen).2 ⟨hq, hr⟩
    match args, hlen with
    | [], _ =>
      simp only [words, ofString_name]
      simp only [List.head?_nil, List.length_nil, Nat.zero_add] at h
      simp [h]
    | [x], _ =>
      simp only [words, ofString_name, wanted_arg]
      simp only [List.head?_cons, List.length_cons, List.length_nil, Nat.zero_add] at h
      simp [h]
  · intro hc
    cases ws with
    | nil => rfl
    | cons w ws =>
      cases hw : ofString w with
      | none => simp only [words, hw]
      | some c =>
        have hwc := ofString_some w c hw
        subst hwc
        match ws with
        | [] =>
          have h := endOk_iff s hv c [] (by simp)
          simp only [List.head?_nil, List.length_nil, Nat.zero_add] at h
          have : ¬ endOk c (wanted s none) 1 = true := fun he => hc c ⟨hn, (h.1 he).1, [], rfl, by simp, (h.1 he).2⟩
          simp only [words, hw]
          simp [this]
        | [x] =>
          have h := endOk_iff s hv c [x] (by simp)
          simp only [List.head?_cons, List.length_cons, List.length_nil, Nat.zero_add] at h
          have : ¬ endOk c (wanted s (some x)) 2 = true := fun he => hc c ⟨hn, (h.1 he).1, [x], rfl, by simp, (h.1 he).2⟩
          simp only [words, hw, wanted_arg]
          simp [this]
        | x :: y :: ws => simp only [words, hw]

/-! ### Numbers -/

theorem dec_digit (d : Nat) (h : d < 10) : isDigit (48 + d).toUInt8 = true ∧ (48 + d).toUInt8.toNat - 48 = d ∧
    isSpace (48 + d).toUInt8 = false ∧ (48 + d).toUInt8 ≠ 45 ∧ (48 + d).toUInt8 ≠ 43 := by
  have : ∀ d : Fin 10, isDigit (48 + d.val).toUInt8 = true ∧ (48 + d.val).toUInt8.toNat - 48 = d.val ∧
    isSpace (48 + d.val).toUInt8 = false ∧ (48 + d.val).toUInt8 ≠ 45 ∧ (48 + d.val).toUInt8 ≠ 43 := by decide +kernel
  exact this ⟨d, h⟩

theorem dec_mem (n v : Nat) : ∀ c ∈ dec n v, ∃ d < 10, c = (48 + d).toUInt8 := by
  induction n generalizing v with
  | zero => simp [dec]
  | succ n ih =>
    intro c hc
    rw [dec, List.mem_append] at hc
    rcases hc with h | h
    · exact ih _ c h
    · exact ⟨v % 10, by omega, by simpa using h⟩

theorem dec_value (n v : Nat) : (dec n v).foldl (fun v c => 10 * v + (c.toNat - 48)) 0 = v % 10 ^ n := by
  induction n generalizing v with
  | zero => simp [dec, Nat.mod_one]
  | succ n ih =>
    rw [dec, List.foldl_append, ih]
    simp only [List.foldl_cons, List.foldl_nil]
    rw [(dec_digit (v % 10) (by omega)).2.1, Nat.pow_succ, Nat.mul_comm (10 ^ n) 10, Nat.mod_mul]
    omega

theorem takeWhile_digits (ds junk : Str) (h : ∀ c ∈ ds, isDigit c = true) (hj : ∀ c, junk.head? = some c → isDigit c = false) :
    (ds ++ junk).takeWhile isDigit = ds := by
  induction ds with
  | nil =>
    cases junk with
    | nil => rfl
    | cons c j => simp [List.takeWhile_cons, hj c rfl]
  | cons c ds ih => simp [List.takeWhile_cons, h c (by simp), ih (fun x hx => h x (by simp [hx]))]

theorem strtol_dec (n v : Nat) (junk : Str) (hv : v < 10 ^ (n + 1)) (hv63 : v < 2 ^ 63)
    (hj : ∀ c, junk.head? = some c → isDigit c = false) : strtol (dec (n + 1) v ++ junk) = v := by
  have hval := dec_value (n + 1) v
  rw [Nat.mod_eq_of_lt hv] at hval
  have hm := dec_mem (n + 1) v
  have hne : dec (n + 1) v ≠ [] := by simp [dec]
  have htw := takeWhile_digits (dec (n + 1) v) junk (by
    intro c hc; obtain ⟨d, hd, rfl⟩ := hm c hc; exact (dec_digit d hd).1) hj
  have hdig : digits (dec (n + 1) v ++ junk) = v := by unfold digits; rw [htw, hval]
  generalize dec (n + 1) v = ds at *
  cases ds with
  | nil => exact absurd rfl hne
  | cons c ds =>
    obtain ⟨d, hd, rfl⟩ := hm c (by simp)
    obtain ⟨_, _, h3, h4, h5⟩ := dec_digit d hd
    have hdw : ((48 + d).toUInt8 :: ds ++ junk).dropWhile isSpace = (48 + d).toUInt8 :: ds ++ junk := by
      rw [List.cons_append, List.dropWhile_cons, h3]; rfl
    unfold strtol
    simp only [hdw, hdig]
    rw [if_neg (by simpa using h4), if_neg (by simpa using h5)]
    omega

theorem atoi_dec (n v : Nat) (junk : Str) (hv : v < 10 ^ (n + 1)) (hv63 : v < 2 ^ 63)
    (hj : ∀ c, junk.head? = some c → isDigit c = false) :
    atoi (dec (n + 1) v ++ junk) = ((v : Int) + 2 ^ 31) % 2 ^ 32 - 2 ^ 31 := by
  unfold atoi; rw [strtol_dec n v junk hv hv63 hj]

/-! ### The status file -/

theorem lines_line (l : Str) (h : 10 ∉ l) (rest : Str) : lines (l ++ 10 :: rest) = (l ++ [10]) :: lines rest := by
  induction l with
  | nil => simp [lines]
  | cons c l ih =>
    simp at h
    rw [List.cons_append, lines, if_neg (fun e => h.1 e.symm), ih h.2]
    rfl

theorem token_word (t rest : Str) (hne : t ≠ []) (h : ∀ c ∈ t, c ≠ 32 ∧ c ≠ 9 ∧ c ≠ 10) (d : UInt8) (hd : isDelim d = true) :
    token (t ++ d :: rest) = some (t, rest) := by
  have hnd : ∀ c ∈ t, isDelim c = false := by
    intro c hc
    obtain ⟨h1, h2, h3⟩ := h c hc
    simp [isDelim, h1, h2, h3]
  have h1 : (t ++ d :: rest).dropWhile isDelim = t ++ d :: rest := by
    cases t with
    | nil => exact absurd rfl hne
    | cons c t => simp [List.dropWhile_cons, hnd c (by simp)]
  have h2 : ∀ t : Str, (∀ c ∈ t, isDelim c = false) → (t ++ d :: rest).takeWhile (fun c => !isDelim c) = t ∧
      (t ++ d :: rest).dropWhile (fun c => !isDelim c) = d :: rest := by
    intro t
    induction t with
    | nil => intro _; simp [hd]
    | cons c t ih =>
      intro hc
      have := ih (fun x hx => hc x (by simp [hx]))
      simp [List.takeWhile_cons, List.dropWhile_cons, hc c (by simp), this]
  unfold token
  simp only [h1, h2 t hnd]
  simp

theorem nibble_hex (n : Nat) (h : n < 16) : hexDigit (nibble n) = some n ∧ nibble n ≠ 32 ∧ nibble n ≠ 9 ∧ nibble n ≠ 10 := by
  have : ∀ n : Fin 16, hexDigit (nibble n) = some n.val ∧ nibble n ≠ 32 ∧ nibble n ≠ 9 ∧ nibble n ≠ 10 := by decide +kernel
  exact this ⟨n, h⟩

def nibbles : Nat → Nat → List Nat
  | 0, _ => []
  | n + 1, v => nibbles n (v / 16) ++ [v % 16]

theorem hex_eq (n v : Nat) : hex n v = (nibbles n v).map nibble := by
  induction n generalizing v with
  | zero => rfl
  | succ n ih => simp [hex, nibbles, ih]

theorem nibbles_lt (n v : Nat) : ∀ d ∈ nibbles n v, d < 16 := by
  induction n generalizing v with
  | zero => simp [nibbles]
  | succ n ih =>
    intro d hd
    simp [nibbles] at hd
    rcases hd with h | h
    · exact ih _ d h
    · omega

theorem hexRun_map (ds : List Nat) (h : ∀ d ∈ ds, d < 16) : hexRun (ds.map nibble) = ds := by
  induction ds with
  | nil => rfl
  | cons d ds ih =>
    simp only [List.map_cons, hexRun, (nibble_hex d (h d (by simp))).1]
    rw [ih (fun x hx => h x (by simp [hx]))]

theorem nibbles_value (n v : Nat) : (nibbles n v).foldl (fun v d => 16 * v + d) 0 = v % 16 ^ n := by
  induction n generalizing v with
  | zero => simp [nibbles, Nat.mod_one]
  | succ n ih =>
    rw [nibbles, List.foldl_append, ih]
    simp only [List.foldl_cons, List.foldl_nil]
    rw [Nat.pow_succ, Nat.mul_comm (16 ^ n) 16, Nat.mod_mul]
    omega

theorem nibbles_ne (n v : Nat) : nibbles (n + 1) v ≠ [] := by simp [nibbles]

theorem scanHex_hex (v : Nat) (h : v < 2 ^ 64) : scanHex (hex 16 v) = some v := by
  unfold scanHex
  rw [hex_eq, hexRun_map _ (nibbles_lt 16 v)]
  have hne := nibbles_ne 15 v
  have hv := nibbles_value 16 v
  generalize nibbles 16 v = ds at hne hv
  cases ds with
  | nil => exact absurd rfl hne
  | cons d ds =>
    simp only [hv]
    have : v % 16 ^ 16 = v := Nat.mod_eq_of_lt (by omega)
    rw [this]
    congr 1
    omega

theorem checkLines_before (before : List (Str × Str)) (h : ∀ f ∈ before, OtherField f) (rest : Str) :
    checkLines (lines (before.flatMap field ++ rest)) = checkLines (lines rest) := by
  induction before with
  | nil => rfl
  | cons f fs ih =>
    obtain ⟨h1, h2, h3, h4⟩ := h f (by simp)
    have hn : 10 ∉ f.1 ++ [9] ++ f.2 := by
      simp [h4]
      intro hc; exact (h2 10 hc).2.2 rfl
    have e : (f :: fs).flatMap field ++ rest = (f.1 ++ [9] ++ f.2) ++ 10 :: (fs.flatMap field ++ rest) := by
      simp [field]
    rw [e, lines_line _ hn, checkLines]
    have e2 : f.1 ++ [9] ++ f.2 ++ [10] = f.1 ++ 9 :: (f.2 ++ [10]) := by simp
    rw [e2, token_word f.1 _ h1 h2 9 (by decide)]
    simp only [h3, if_false]
    exact ih (fun f hf => h f (by simp [hf]))

theorem checkLines_caps (v : Nat) (hv : v < 2 ^ 64) (rest : Str) :
    checkLines (lines (field (b "CapPrm:", hex 16 v) ++ rest)) = some (v.testBit 21) := by
  have hd : ∀ c ∈ hex 16 v, c ≠ 32 ∧ c ≠ 9 ∧ c ≠ 10 := by
    intro c hc
    rw [hex_eq] at hc
    simp only [List.mem_map] at hc
    obtain ⟨d, hd, rfl⟩ := hc
    exact (nibble_hex d (nibbles_lt 16 v d hd)).2
  have hb : ∀ c ∈ b "CapPrm:", c ≠ 32 ∧ c ≠ 9 ∧ c ≠ 10 := by decide +kernel
  have hn : 10 ∉ b "CapPrm:" ++ [9] ++ hex 16 v := by
    intro h
    simp only [List.mem_append, List.mem_singleton] at h
    rcases h with (h | h) | h
    · exact (hb 10 h).2.2 rfl
    · cases h
    · exact (hd 10 h).2.2 rfl
  have e : field (b "CapPrm:", hex 16 v) ++ rest = (b "CapPrm:" ++ [9] ++ hex 16 v) ++ 10 :: rest := by simp [field]
  have hne : hex 16 v ≠ [] := by rw [hex_eq]; simpa using nibbles_ne 15 v
  rw [e, lines_line _ hn, checkLines]
  have e2 : b "CapPrm:" ++ [9] ++ hex 16 v ++ [10] = b "CapPrm:" ++ 9 :: (hex 16 v ++ [10]) := by simp
  rw [e2, token_word _ _ (by decide +kernel) hb 9 (by decide)]
  simp only [if_true]
  rw [token_word (hex 16 v) [] hne hd 10 (by decide)]
  simp only [scanHex_hex v hv]

end Verif.Cli
