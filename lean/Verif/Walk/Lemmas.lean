import Verif.Walk.Spec

namespace Verif.Walk

theorem splitLast_none {b : Bytes} (h : slash ∉ b) : splitLast b = none := by
  induction b with
  | nil => rfl
  | cons c cs ih =>
    have h1 : slash ≠ c ∧ slash ∉ cs := by simpa using h
    rw [splitLast, ih h1.2]; simp [Ne.symm h1.1]

theorem splitLast_append (a : Bytes) {b : Bytes} (h : slash ∉ b) :
    splitLast (a ++ slash :: b) = some (a, b) := by
  induction a with
  | nil => rw [List.nil_append, splitLast, splitLast_none h]; simp
  | cons c cs ih => rw [List.cons_append, splitLast, ih]

theorem stripSlashes_id {a n : Bytes} (hn : n ≠ []) (hs : slash ∉ n) : stripSlashes (a ++ n) = a ++ n := by
  unfold stripSlashes
  rw [List.reverse_append]
  obtain ⟨c, cs, hc⟩ : ∃ c cs, n.reverse = c :: cs := by
    cases h : n.reverse with
    | nil => exact absurd (by simpa using h) hn
    | cons c cs => exact ⟨c, cs, rfl⟩
  have hcm : c ∈ n := by
    have : c ∈ n.reverse := by rw [hc]; simp
    simpa using this
  have hne : (c == slash) = false := by
    rw [beq_eq_false_iff_ne]; rintro rfl; exact hs hcm
  rw [hc, List.cons_append, List.dropWhile_cons, hne]
  simp only [Bool.false_eq_true, if_false]
  rw [← List.cons_append, ← hc, ← List.reverse_append, List.reverse_reverse]

theorem basename_child (d : Bytes) {w : Bytes} (h : slash ∉ w) : basename (child d w) = w := by
  unfold basename child; rw [splitLast_append _ h]

/-- The directory of a path within a subdirectory. -/
theorem dirname_child {d n w : Bytes} (hn : n ≠ []) (hns : slash ∉ n) (hw : w ≠ []) (hws : slash ∉ w) :
    dirname (child (child d n) w) = child d n := by
  unfold dirname
  have h1 : stripSlashes (child (child d n) w) = child (child d n) w := by
    unfold child
    have := stripSlashes_id (a := (d ++ slash :: n) ++ [slash]) hw hws
    simpa using this
  have h2 : stripSlashes (child d n) = child d n := by
    unfold child
    have := stripSlashes_id (a := d ++ [slash]) hn hns
    simpa using this
  have h3 : (child (child d n) w).isEmpty = false := by simp [child]
  have h4 : (child d n).isEmpty = false := by simp [child]
  simp only [h1, h3, Bool.false_eq_true, if_false]
  have : splitLast (child (child d n) w) = some (child d n, w) := splitLast_append _ hws
  rw [this]
  simp only [h2, h4, Bool.false_eq_true, if_false]

/-- With an empty wildcard, the directory is the one above. -/
theorem dirname_child_nil {d n : Bytes} (hn : n ≠ []) (hns : slash ∉ n)
    (hd : stripSlashes d = d) (hne : d ≠ []) :
    dirname (child d n ++ [slash]) = d := by
  unfold dirname
  have h1 : stripSlashes (child d n ++ [slash]) = child d n := by
    have h2 : stripSlashes (child d n) = child d n := by
      unfold child
      have := stripSlashes_id (a := d ++ [slash]) hn hns
      simpa using this
    unfold stripSlashes at h2 ⊢
    rw [List.reverse_append]
    simpa using h2
  have h4 : (child d n).isEmpty = false := by simp [child]
  simp only [h1, h4, Bool.false_eq_true, if_false]
  have : splitLast (child d n) = some (d, n) := splitLast_append _ hns
  rw [this]
  have h5 : d.isEmpty = false := by simpa using hne
  simp only [hd, h5, Bool.false_eq_true, if_false]

theorem extension_none {b : Bytes} (h : dot ∉ b) : extension b = none := by
  induction b with
  | nil => rfl
  | cons c cs ih =>
    have h1 : dot ≠ c ∧ dot ∉ cs := by simpa using h
    rw [extension, ih h1.2]; simp [Ne.symm h1.1]

theorem extension_suffix {n e : Bytes} (h : extension n = some e) : ∃ s, n = s ++ e := by
  induction n with
  | nil => simp [extension] at h
  | cons c cs ih =>
    rw [extension] at h
    cases hc : extension cs with
    | some e' =>
      rw [hc] at h; simp at h; subst h
      obtain ⟨s, hs⟩ := ih hc
      exact ⟨c :: s, by rw [hs]; rfl⟩
    | none =>
      rw [hc] at h
      simp only at h
      split at h
      · simp at h; exact ⟨[], by rw [h]; rfl⟩
      · simp at h

theorem extension_append (s : Bytes) {e : Bytes} (h : dot ∉ e) : extension (s ++ dot :: e) = some (dot :: e) := by
  induction s with
  | nil => rw [List.nil_append, extension, extension_none h]; simp
  | cons c cs ih => rw [List.cons_append, extension, ih]

theorem extension_so (n : Bytes) : extension n = some dotSo ↔ ∃ stem, n = stem ++ [46, 115, 111] := by
  constructor
  · intro h; exact extension_suffix h
  · rintro ⟨s, rfl⟩
    exact extension_append s (e := [115, 111]) (by decide)

theorem mem_tryFile {fnmatch : Bytes → Bytes → Bool} {w name b p : Bytes} :
    p ∈ tryFile fnmatch w name b ↔ Matches fnmatch w name ∧ p = b := by
  unfold tryFile Matches
  rw [← extension_so]
  split
  · next h => simp [h]
  · next h => simp [h]

theorem both_ok {a b : Tried} {x y : List Bytes} (ha : a = .ok x) (hb : b = .ok y) : both a b = .ok (x ++ y) := by
  subst ha; subst hb; rfl

theorem store_ok {b : Bytes} {k : Tried} (h : b.length < 256) : store b k = k := by
  unfold store pathLen; rw [if_neg (by omega)]

theorem tail_cases {r : Bytes} : (r = [] ∨ r.head? = some slash) ↔ r = [] ∨ ∃ r', r = slash :: r' := by
  cases r with
  | nil => simp
  | cons c cs => simp

/-- A name and what follows it are determined by the whole, if the name has no slash. -/
theorem name_unique {n m r r' : Bytes} (hn : slash ∉ n) (hm : slash ∉ m)
    (hr : r = [] ∨ ∃ x, r = slash :: x) (hr' : r' = [] ∨ ∃ x, r' = slash :: x) (h : n ++ r = m ++ r') : n = m := by
  induction n generalizing m with
  | nil =>
    cases m with
    | nil => rfl
    | cons c cs =>
      exfalso
      rcases hr with rfl | ⟨x, rfl⟩
      · simp at h
      · simp at h; exact hm (by simp [h.1])
  | cons c cs ih =>
    cases m with
    | nil =>
      exfalso
      rcases hr' with rfl | ⟨x, rfl⟩
      · simp at h
      · simp at h; exact hn (by simp [h.1])
    | cons e es =>
      simp only [List.cons_append, List.cons.injEq] at h
      rw [h.1, ih (by intro h'; exact hn (by simp [h'])) (by intro h'; exact hm (by simp [h'])) h.2]

variable {fs : Fs} {fnmatch : Bytes → Bytes → Bool} {recursive : Bool} {w : Bytes}

theorem below_prefix {d x : Bytes} (h : Below fs w d x) : ∃ r, x = d ++ r ∧ (r = [] ∨ ∃ y, r = slash :: y) := by
  induction h with
  | here d => exact ⟨[], by simp, Or.inl rfl⟩
  | down d n x _ _ ih =>
    obtain ⟨r, hr, _⟩ := ih
    exact ⟨slash :: n ++ r, by rw [hr]; simp [child], Or.inr ⟨n ++ r, rfl⟩⟩

theorem visits_prefix {d x : Bytes} (h : Visits fs recursive w d x) :
    ∃ r, x = d ++ r ∧ (r = [] ∨ ∃ y, r = slash :: y) := by
  unfold Visits at h
  split at h
  · exact below_prefix h
  · exact ⟨[], by simp [h], Or.inl rfl⟩

theorem visits_here (d : Bytes) : Visits fs recursive w d d := by
  unfold Visits; split
  · exact .here d
  · rfl

theorem visits_down {d n x : Bytes} (hr : recursive = true) (he : Enters fs w d n)
    (h : Visits fs recursive w (child d n) x) : Visits fs recursive w d x := by
  unfold Visits at h ⊢; rw [if_pos hr] at h ⊢; exact .down _ _ _ he h

theorem visits_cases {d x : Bytes} (h : Visits fs recursive w d x) :
    x = d ∨ (recursive = true ∧ ∃ n, Enters fs w d n ∧ Visits fs recursive w (child d n) x) := by
  unfold Visits at h
  split at h
  · next hr =>
    cases h with
    | here => left; rfl
    | down _ n _ he hb => right; exact ⟨hr, n, he, by unfold Visits; rw [if_pos hr]; exact hb⟩
  · left; exact h

/-- What an entry of a directory contributes. -/
def FromEntry (fs : Fs) (fnmatch : Bytes → Bytes → Bool) (recursive : Bool) (w d n p : Bytes) : Prop :=
  (Lists fs d n ∧ fs.isDir (child d n) = false ∧ Matches fnmatch w n ∧ p = child d n ∧ p.length < 256) ∨
  (recursive = true ∧ Enters fs w d n ∧
    ((IsPatch fs fnmatch recursive w (child d n) p ∨ IsBogus fs fnmatch recursive w (child d n) p) ∨
      (Matches fnmatch w n ∧ p = child (child d n) w)))

theorem from_entries {d p : Bytes} {names : List Bytes} (h : fs.ls d = some names) :
    (IsPatch fs fnmatch recursive w d p ∨ IsBogus fs fnmatch recursive w d p) ↔
      ∃ n ∈ names, FromEntry fs fnmatch recursive w d n p := by
  have hmem : ∀ n, Lists fs d n → n ∈ names := by
    rintro n ⟨ns, h1, h2, -, -⟩
    rw [h] at h1; simp at h1; rw [h1]; exact h2
  constructor
  · rintro (⟨x, n, hv, hl, hd, hm, hp, hlen⟩ | ⟨hr, x, n, hv, he, hm, hp⟩)
    · rcases visits_cases hv with rfl | ⟨hr, n', he, hv'⟩
      · exact ⟨n, hmem n hl, Or.inl ⟨hl, hd, hm, hp, hlen⟩⟩
      · exact ⟨n', hmem n' he.1, Or.inr ⟨hr, he, Or.inl (Or.inl ⟨x, n, hv', hl, hd, hm, hp, hlen⟩)⟩⟩
    · rcases visits_cases hv with rfl | ⟨hr, n', he', hv'⟩
      · exact ⟨n, hmem n he.1, Or.inr ⟨hr, he, Or.inr ⟨hm, hp⟩⟩⟩
      · exact ⟨n', hmem n' he'.1, Or.inr ⟨hr, he', Or.inl (Or.inr ⟨hr, x, n, hv', he, hm, hp⟩)⟩⟩
  · rintro ⟨n, -, ⟨hl, hd, hm, hp, hlen⟩ | ⟨hr, he, (⟨x, n', hv, h⟩ | ⟨-, x, n', hv, h⟩) | ⟨hm, hp⟩⟩⟩
    · exact Or.inl ⟨d, n, visits_here d, hl, hd, hm, hp, hlen⟩
    · exact Or.inl ⟨x, n', visits_down hr he hv, h⟩
    · exact Or.inr ⟨hr, x, n', visits_down hr he hv, h⟩
    · exact Or.inr ⟨hr, d, n, visits_here d, he, hm, hp⟩

theorem fromEntry_prefix {d n p : Bytes} (h : FromEntry fs fnmatch recursive w d n p) :
    ∃ r, p = child d n ++ r ∧ (r = [] ∨ ∃ y, r = slash :: y) := by
  rcases h with ⟨-, -, -, hp, -⟩ | ⟨-, -, (⟨x, n', hv, -, -, -, hp, -⟩ | ⟨-, x, n', hv, -, -, hp⟩) | ⟨-, hp⟩⟩
  · exact ⟨[], by simp [hp], Or.inl rfl⟩
  · obtain ⟨r, hr, _⟩ := visits_prefix hv
    refine ⟨r ++ slash :: n', by rw [hp, hr]; simp [child], ?_⟩
    right
    cases r with
    | nil => exact ⟨n', rfl⟩
    | cons c cs =>
      rename_i h'
      rcases h' with h' | ⟨y, h'⟩
      · simp at h'
      · simp at h'; exact ⟨cs ++ slash :: n', by rw [h'.1]; rfl⟩
  · obtain ⟨r, hr, h'⟩ := visits_prefix hv
    refine ⟨r ++ slash :: n' ++ slash :: w, by rw [hp, hr]; simp [child], ?_⟩
    right
    rcases h' with rfl | ⟨y, rfl⟩
    · exact ⟨_, rfl⟩
    · exact ⟨_, rfl⟩
  · exact ⟨slash :: w, by rw [hp]; simp [child], Or.inr ⟨w, rfl⟩⟩

/-- Different entries contribute different paths. -/
theorem fromEntry_disjoint {d n m p : Bytes} (hn : slash ∉ n) (hm : slash ∉ m)
    (h1 : FromEntry fs fnmatch recursive w d n p) (h2 : FromEntry fs fnmatch recursive w d m p) : n = m := by
  obtain ⟨r, hr, hr'⟩ := fromEntry_prefix h1
  obtain ⟨s, hs, hs'⟩ := fromEntry_prefix h2
  rw [hr] at hs
  unfold child at hs
  rw [List.append_assoc, List.append_assoc] at hs
  have h3 := List.append_cancel_left hs
  simp only [List.cons_append, List.cons.injEq, true_and] at h3
  exact name_unique hn hm hr' hs' h3

/-- What is known of the list of a directory. -/
def Good (fs : Fs) (fnmatch : Bytes → Bytes → Bool) (recursive : Bool) (w d : Bytes) (l : List Bytes) : Prop :=
  (∀ p, p ∈ l ↔ IsPatch fs fnmatch recursive w d p ∨ IsBogus fs fnmatch recursive w d p) ∧
  ((∀ p, ¬ IsBogus fs fnmatch recursive w d p) → l.Nodup)

theorem entry_good {sub : Bytes → Tried} {d n : Bytes} (hd : d.length ≤ 254)
    (hn : n ≠ [] ∧ slash ∉ n) {names : List Bytes} (hls : fs.ls d = some names) (hmem : n ∈ names)
    (hsub : recursive = true → Enters fs w d n →
      ∃ l, sub (child (child d n) w) = .ok l ∧ Good fs fnmatch recursive w (child d n) l) :
    ∃ l, entry fs fnmatch recursive sub d w n = .ok l ∧
      (∀ p, p ∈ l ↔ FromEntry fs fnmatch recursive w d n p) ∧
      ((∀ p, ¬ IsBogus fs fnmatch recursive w d p) → l.Nodup) := by
  have hcl : (child d n).length = d.length + 1 + n.length := by simp [child]; omega
  unfold entry pathLen
  by_cases h1 : d.length + 1 + n.length ≥ 256
  · rw [if_pos h1]
    refine ⟨[], rfl, fun p => ?_, fun _ => List.nodup_nil⟩
    simp only [List.not_mem_nil, false_iff]
    rintro (⟨-, -, -, hp, hlen⟩ | ⟨-, ⟨-, -, hlen⟩, -⟩)
    · rw [hp, hcl] at hlen; omega
    · rw [hcl] at hlen; omega
  · rw [if_neg h1]
    by_cases h2 : n = [dot] ∨ n = [dot, dot]
    · rw [if_pos h2]
      refine ⟨[], rfl, fun p => ?_, fun _ => List.nodup_nil⟩
      simp only [List.not_mem_nil, false_iff]
      have hno : ¬ Lists fs d n := by
        rintro ⟨-, -, -, h3, h4⟩
        rcases h2 with h2 | h2
        · exact h3 h2
        · exact h4 h2
      rintro (⟨hl, -⟩ | ⟨-, ⟨hl, -⟩, -⟩)
      · exact hno hl
      · exact hno hl
    · rw [if_neg h2]
      have hlists : Lists fs d n := ⟨names, hls, hmem, fun h => h2 (Or.inl h), fun h => h2 (Or.inr h)⟩
      simp only
      have hc : d ++ slash :: n = child d n := rfl
      rw [hc, store_ok (by omega)]
      by_cases hdir : fs.isDir (child d n) = true
      · rw [if_pos hdir]
        cases hrec : recursive with
        | false =>
          refine ⟨[], by simp, fun p => ?_, fun _ => List.nodup_nil⟩
          simp only [List.not_mem_nil, false_iff]
          rintro (⟨-, h, -⟩ | ⟨h, -⟩)
          · rw [hdir] at h; simp at h
          · simp at h
        | true =>
          rw [if_pos rfl]
          by_cases h3 : (child d n).length + w.length + 1 ≥ 256
          · rw [if_pos h3]
            refine ⟨[], rfl, fun p => ?_, fun _ => List.nodup_nil⟩
            simp only [List.not_mem_nil, false_iff]
            rintro (⟨-, h, -⟩ | ⟨-, ⟨-, -, h⟩, -⟩)
            · rw [hdir] at h; simp at h
            · omega
          · rw [if_neg h3]
            have hent : Enters fs w d n := ⟨hlists, hdir, by omega⟩
            obtain ⟨l, hl, hg⟩ := hsub hrec hent
            rw [hrec] at hg
            have hlast : (child d n).getLast? ≠ some slash := by
              unfold child
              rw [List.getLast?_append, List.getLast?_cons]
              intro h
              have hx : n.getLast?.getD slash = slash := by simpa using h
              obtain ⟨y, hy⟩ : ∃ y, n.getLast? = some y := by
                cases h' : n.getLast? with
                | none => simp at h'; exact absurd h' hn.1
                | some y => exact ⟨y, rfl⟩
              rw [hy] at hx
              simp at hx
              subst hx
              exact hn.2 (List.mem_of_getLast? hy)
            rw [if_neg hlast]
            have hb : child d n ++ [slash] ++ w = child (child d n) w := by simp [child]
            have hbl : (child (child d n) w).length < 256 := by
              have : (child (child d n) w).length = (child d n).length + 1 + w.length := by
                simp [child]; omega
              omega
            rw [hb, store_ok hbl]
            refine ⟨_, both_ok hl rfl, fun p => ?_, fun hno => ?_⟩
            · rw [List.mem_append, hg.1, mem_tryFile]
              constructor
              · intro h; exact Or.inr ⟨rfl, hent, h⟩
              · rintro (⟨-, h, -⟩ | ⟨-, -, h⟩)
                · rw [hdir] at h; simp at h
                · exact h
            · have hm : ¬ Matches fnmatch w n := fun hm =>
                hno _ ⟨rfl, d, n, visits_here d, hent, hm, rfl⟩
              have : tryFile fnmatch w n (child (child d n) w) = [] := by
                rw [List.eq_nil_iff_forall_not_mem]
                intro p hp; exact hm (mem_tryFile.mp hp).1
              rw [this, List.append_nil]
              apply hg.2
              rintro p ⟨-, x, n', hv, h⟩
              exact hno p ⟨rfl, x, n', visits_down rfl hent hv, h⟩
      · rw [if_neg hdir]
        have hdf : fs.isDir (child d n) = false := by simpa using hdir
        refine ⟨_, rfl, fun p => ?_, fun _ => ?_⟩
        · rw [mem_tryFile]
          constructor
          · rintro ⟨hm, rfl⟩; exact Or.inl ⟨hlists, hdf, hm, rfl, by omega⟩
          · rintro (⟨-, -, hm, hp, -⟩ | ⟨-, ⟨-, h, -⟩, -⟩)
            · exact ⟨hm, hp⟩
            · exact absurd h hdir
        · unfold tryFile; split <;> simp

theorem entries_good {sub : Bytes → Tried} {d : Bytes} (hd : d.length ≤ 254) {all : List Bytes}
    (hls : fs.ls d = some all) (names : List Bytes) (hin : ∀ n ∈ names, n ∈ all)
    (hn : ∀ n ∈ names, n ≠ [] ∧ slash ∉ n)
    (hnd : names.Nodup)
    (hsub : ∀ n, recursive = true → Enters fs w d n →
      ∃ l, sub (child (child d n) w) = .ok l ∧ Good fs fnmatch recursive w (child d n) l) :
    ∃ l, entries fs fnmatch recursive sub d w names = .ok l ∧
      (∀ p, p ∈ l ↔ ∃ n ∈ names, FromEntry fs fnmatch recursive w d n p) ∧
      ((∀ p, ¬ IsBogus fs fnmatch recursive w d p) → l.Nodup) := by
  induction names with
  | nil => exact ⟨[], rfl, by simp, fun _ => List.nodup_nil⟩
  | cons n ns ih =>
    obtain ⟨l1, h1, hm1, hn1⟩ := entry_good hd (hn n (by simp)) hls (hin n (by simp)) (hsub n)
    rw [List.nodup_cons] at hnd
    obtain ⟨l2, h2, hm2, hn2⟩ := ih (fun m hm => hin m (by simp [hm])) (fun m hm => hn m (by simp [hm])) hnd.2
    refine ⟨l1 ++ l2, ?_, ?_, ?_⟩
    · rw [entries]; exact both_ok h1 h2
    · intro p
      rw [List.mem_append, hm1, hm2]
      simp
    · intro hno
      rw [List.nodup_append]
      refine ⟨hn1 hno, hn2 hno, ?_⟩
      rintro p hp1 q hp2 rfl
      obtain ⟨m, hm, hf⟩ := (hm2 p).mp hp2
      have := fromEntry_disjoint (hn n (by simp)).2 (hn m (by simp [hm])).2 ((hm1 p).mp hp1) hf
      subst this
      exact hnd.1 hm

theorem no_listing {d : Bytes} (h : fs.ls d = none) (p : Bytes) :
    ¬ (IsPatch fs fnmatch recursive w d p ∨ IsBogus fs fnmatch recursive w d p) := by
  have hl : ∀ n, ¬ Lists fs d n := by rintro n ⟨ns, h1, -⟩; rw [h] at h1; simp at h1
  rintro (⟨x, n, hv, h1, -⟩ | ⟨-, x, n, hv, h1, -⟩)
  · rcases visits_cases hv with rfl | ⟨-, n', he, -⟩
    · exact hl _ h1
    · exact hl _ he.1
  · rcases visits_cases hv with rfl | ⟨-, n', he, -⟩
    · exact hl _ h1.1
    · exact hl _ he.1

theorem walk_good (hfs : Sound fs) (hw : w ≠ []) (hws : slash ∉ w) (fuel : Nat) (path d : Bytes)
    (hdir : dirname path = d) (hbase : basename path = w) (hd : d.length ≤ 254)
    (hfuel : 256 ≤ fuel + d.length) :
    ∃ l, walk fs fnmatch recursive fuel path = .ok l ∧ Good fs fnmatch recursive w d l := by
  induction fuel generalizing path d with
  | zero => omega
  | succ fuel ih =>
    rw [walk, hdir, hbase]
    cases hls : fs.ls d with
    | none =>
      refine ⟨[], rfl, fun p => ?_, fun _ => List.nodup_nil⟩
      have := no_listing (fnmatch := fnmatch) (recursive := recursive) (w := w) hls p
      simp only [List.not_mem_nil, false_iff]
      exact this
    | some names =>
      simp only
      rw [store_ok (by simp; omega)]
      obtain ⟨l, hl, hm, hn⟩ := entries_good (fnmatch := fnmatch) (recursive := recursive) (w := w)
        (sub := walk fs fnmatch recursive fuel) hd hls names (fun _ h => h)
        (hfs.name d names hls) (hfs.once d names hls) (by
          intro n hr he
          obtain ⟨ns, h1, h2, -, -⟩ := he.1
          have hnn := hfs.name d ns h1 n h2
          have hlen := he.2.2
          have hcl : (child d n).length = d.length + 1 + n.length := by simp [child]; omega
          exact ih _ _ (dirname_child hnn.1 hnn.2 hw hws) (basename_child _ hws) (by omega) (by omega))
      refine ⟨l, hl, fun p => ?_, hn⟩
      rw [hm, from_entries hls]

end Verif.Walk
