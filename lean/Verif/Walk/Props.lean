import Verif.Walk.Lemmas

/-! Properties C106, C107: which live patches `ulp trigger` finds for a wildcard. -/

namespace Verif.Walk

/-- A directory as it stands in a path: not empty, no slash at the end. -/
def Folder (d : Bytes) : Prop := d ≠ [] ∧ d.getLast? ≠ some slash

/-- A wildcard: not empty, no slash. -/
def Wildcard (w : Bytes) : Prop := w ≠ [] ∧ slash ∉ w

instance (d : Bytes) : Decidable (Folder d) := inferInstanceAs (Decidable (_ ∧ _))
instance (d : Bytes) : Decidable (Wildcard d) := inferInstanceAs (Decidable (_ ∧ _))

theorem folder_strip {d : Bytes} (h : Folder d) : stripSlashes d = d := by
  obtain ⟨c, hc⟩ : ∃ c, d.getLast? = some c := by
    cases h' : d.getLast? with
    | none => simp at h'; exact absurd h' h.1
    | some c => exact ⟨c, rfl⟩
  have hne : c ≠ slash := by rintro rfl; exact h.2 hc
  obtain ⟨a, rfl⟩ := List.getLast?_eq_some_iff.mp hc
  exact stripSlashes_id (a := a) (n := [c]) (by simp) (by simpa using Ne.symm hne)

theorem dirname_folder {d w : Bytes} (hd : Folder d) (hw : Wildcard w) : dirname (child d w) = d := by
  unfold dirname
  have h1 : stripSlashes (child d w) = child d w := by
    unfold child
    have := stripSlashes_id (a := d ++ [slash]) hw.1 hw.2
    simpa using this
  have h3 : (child d w).isEmpty = false := by simp [child]
  have h4 : d.isEmpty = false := by simpa using hd.1
  simp only [h1, h3, Bool.false_eq_true, if_false]
  have : splitLast (child d w) = some (d, w) := splitLast_append _ hw.2
  rw [this]
  simp only [folder_strip hd, h4, Bool.false_eq_true, if_false]

theorem dirname_plain {w : Bytes} (hw : Wildcard w) : dirname w = [46] ∧ basename w = w := by
  have h1 : stripSlashes w = w := by
    have := stripSlashes_id (a := []) hw.1 hw.2
    simpa using this
  have h3 : w.isEmpty = false := by simpa using hw.1
  constructor
  · unfold dirname
    simp only [h1, h3, Bool.false_eq_true, if_false]
    rw [splitLast_none hw.2]; rfl
  · unfold basename; rw [splitLast_none hw.2]

/-- **C106** `ulp trigger 'folder/wildcard'`, with a path no longer than the 256 bytes that the options
allow (tools/ulp.c:229-234), tries exactly the files of the directories visited that match (and, beside them, the wildcard
itself in directories with matching names); if there are no such directories, each file is tried once. -/
theorem C106_files_tried (fs : Fs) (fnmatch : Bytes → Bytes → Bool) (recursive : Bool) (hfs : Sound fs)
    (folder w : Bytes) (hd : Folder folder) (hw : Wildcard w) (hlen : (child folder w).length ≤ 256)
    (fuel : Nat) (hf : 256 ≤ fuel) :
    ∃ l, walk fs fnmatch recursive fuel (child folder w) = .ok l ∧
      (∀ p, p ∈ l ↔ IsPatch fs fnmatch recursive w folder p ∨ IsBogus fs fnmatch recursive w folder p) ∧
      ((∀ p, ¬ IsBogus fs fnmatch recursive w folder p) → l.Nodup) := by
  have h1 : folder.length + 1 + w.length ≤ 256 := by simp [child] at hlen; omega
  have h2 : w.length ≠ 0 := by simpa using hw.1
  exact walk_good hfs hw.1 hw.2 fuel _ folder (dirname_folder hd hw) (basename_child _ hw.2) (by omega) (by omega)

/-- **C106**, for a wildcard without folder: the current directory is searched. -/
theorem C106_files_tried_current (fs : Fs) (fnmatch : Bytes → Bytes → Bool) (recursive : Bool) (hfs : Sound fs)
    (w : Bytes) (hw : Wildcard w) (fuel : Nat) (hf : 256 ≤ fuel) :
    ∃ l, walk fs fnmatch recursive fuel w = .ok l ∧
      (∀ p, p ∈ l ↔ IsPatch fs fnmatch recursive w [46] p ∨ IsBogus fs fnmatch recursive w [46] p) ∧
      ((∀ p, ¬ IsBogus fs fnmatch recursive w [46] p) → l.Nodup) :=
  walk_good hfs hw.1 hw.2 fuel _ [46] (dirname_plain hw).1 (dirname_plain hw).2 (by simp) (by simp; omega)

/-- **C106** (partial: no directory has a matching name) Exactly the live patches are tried, each of them
once. -/
theorem C106_exactly_patches_partial (fs : Fs) (fnmatch : Bytes → Bytes → Bool) (recursive : Bool)
    (hfs : Sound fs) (folder w : Bytes) (hd : Folder folder) (hw : Wildcard w)
    (hlen : (child folder w).length ≤ 256) (fuel : Nat) (hf : 256 ≤ fuel)
    (hno : recursive = true → ∀ x name, fs.isDir (child x name) = true → ¬ Matches fnmatch w name) :
    ∃ l, walk fs fnmatch recursive fuel (child folder w) = .ok l ∧
      (∀ p, p ∈ l ↔ IsPatch fs fnmatch recursive w folder p) ∧ l.Nodup := by
  obtain ⟨l, h1, h2, h3⟩ := C106_files_tried fs fnmatch recursive hfs folder w hd hw hlen fuel hf
  have hb : ∀ p, ¬ IsBogus fs fnmatch recursive w folder p := by
    rintro p ⟨hr, x, name, -, he, hm, -⟩
    exact hno hr x name he.2.1 hm
  refine ⟨l, h1, fun p => ?_, h3 hb⟩
  rw [h2]
  exact ⟨fun h => h.resolve_right (hb p), Or.inl⟩

/-- **C106** fails: a directory whose name matches makes the tool try the wildcard itself as a file,
which is not a live patch unless the directory happens to have a file of that name. -/
theorem C106_directory_tried_as_file (fs : Fs) (fnmatch : Bytes → Bytes → Bool) (hfs : Sound fs)
    (folder w : Bytes) (hd : Folder folder) (hw : Wildcard w) (hlen : (child folder w).length ≤ 256)
    (fuel : Nat) (hf : 256 ≤ fuel) (x name : Bytes) (hx : Below fs w folder x) (he : Enters fs w x name)
    (hm : Matches fnmatch w name) :
    ∃ l, walk fs fnmatch true fuel (child folder w) = .ok l ∧ child (child x name) w ∈ l := by
  obtain ⟨l, h1, h2, -⟩ := C106_files_tried fs fnmatch true hfs folder w hd hw hlen fuel hf
  exact ⟨l, h1, (h2 _).mpr (Or.inr ⟨rfl, x, name, by unfold Visits; simpa using hx, he, hm, rfl⟩)⟩

/-! ### C107 -/

theorem both_mono {a b a' b' : Tried} {l : List Bytes} (ha : ∀ x, a = .ok x → a' = .ok x)
    (hb : ∀ x, b = .ok x → b' = .ok x) (h : both a b = .ok l) : both a' b' = .ok l := by
  cases a with
  | error e => simp [both] at h
  | ok x =>
    cases b with
    | error e => simp [both] at h
    | ok y =>
      simp only [both, Except.ok.injEq] at h
      rw [ha x rfl, hb y rfl, ← h]; rfl

theorem store_mono {b : Bytes} {k k' : Tried} {l : List Bytes} (hk : ∀ x, k = .ok x → k' = .ok x)
    (h : store b k = .ok l) : store b k' = .ok l := by
  unfold store at h ⊢
  split at h
  · simp at h
  · next hb => rw [if_neg hb]; exact hk l h

theorem walk_mono (fs : Fs) (fnmatch : Bytes → Bytes → Bool) (recursive : Bool) (fuel : Nat) (path : Bytes)
    (l : List Bytes) (h : walk fs fnmatch recursive fuel path = .ok l) :
    walk fs fnmatch recursive (fuel + 1) path = .ok l := by
  induction fuel generalizing path l with
  | zero => simp [walk] at h
  | succ fuel ih =>
    rw [walk] at h ⊢
    cases hls : fs.ls (dirname path) with
    | none => rw [hls] at h; exact h
    | some names =>
      rw [hls] at h
      simp only at h ⊢
      refine store_mono ?_ h
      · clear hls h l
        intro l h
        induction names generalizing l with
        | nil => exact h
        | cons n ns ihn =>
          rw [entries] at h ⊢
          refine both_mono ?_ (fun x hx => ihn x hx) h
          intro x hx
          unfold entry at hx ⊢
          split
          · next h1 => rw [if_pos h1] at hx; exact hx
          · next h1 =>
            rw [if_neg h1] at hx
            split
            · next h2 => rw [if_pos h2] at hx; exact hx
            · next h2 =>
              rw [if_neg h2] at hx
              simp only at hx ⊢
              refine store_mono ?_ hx
              intro x hx
              split
              · next h3 =>
                rw [if_pos h3] at hx
                split
                · next h4 =>
                  rw [if_pos h4] at hx
                  split
                  · next h5 => rw [if_pos h5] at hx; exact hx
                  · next h5 =>
                    rw [if_neg h5] at hx
                    refine store_mono (fun z hz => ?_) hx
                    exact both_mono (fun y hy => ih _ _ hy) (fun y hy => hy) hz
                · next h4 => rw [if_neg h4] at hx; exact hx
              · next h3 => rw [if_neg h3] at hx; exact hx

theorem walk_stable (fs : Fs) (fnmatch : Bytes → Bytes → Bool) (recursive : Bool) (fuel : Nat) (path : Bytes)
    (l : List Bytes) (h : walk fs fnmatch recursive fuel path = .ok l) (more : Nat) :
    walk fs fnmatch recursive (fuel + more) path = .ok l := by
  induction more with
  | zero => exact h
  | succ m ih => exact walk_mono fs fnmatch recursive _ path l ih

/-- **C107** (partial: the path must not end in a slash) The search ends, whatever the file system,
with cycles of symbolic links too, and never writes past its buffer of 256 bytes: the recursion is at most
256 deep. -/
theorem C107_search_ends_partial (fs : Fs) (fnmatch : Bytes → Bytes → Bool) (recursive : Bool)
    (hfs : Sound fs) (folder w : Bytes) (hd : Folder folder) (hw : Wildcard w)
    (hlen : (child folder w).length ≤ 256) :
    ∃ l, ∀ fuel, 256 ≤ fuel → walk fs fnmatch recursive fuel (child folder w) = .ok l := by
  obtain ⟨l, h, -⟩ := C106_files_tried fs fnmatch recursive hfs folder w hd hw hlen 256 (by omega)
  refine ⟨l, fun fuel hf => ?_⟩
  obtain ⟨m, rfl⟩ : ∃ m, fuel = 256 + m := ⟨fuel - 256, by omega⟩
  exact walk_stable _ _ _ _ _ _ h m

theorem entries_deep (fs : Fs) (fnmatch : Bytes → Bytes → Bool) (sub : Bytes → Tried) (d : Bytes)
    (names : List Bytes) (hn : ∀ n ∈ names, n ≠ [] ∧ slash ∉ n)
    (hsub : ∀ n, n ≠ [] → slash ∉ n → sub (child d n ++ [slash]) = .error .deep)
    (hex : ∃ n ∈ names, n ≠ [46] ∧ n ≠ [46, 46] ∧ fs.isDir (child d n) = true ∧ (child d n).length + 1 < 256) :
    entries fs fnmatch true sub d [] names = .error .deep := by
  have hentry : ∀ n, n ≠ [] → slash ∉ n →
      (entry fs fnmatch true sub d [] n = .error .deep ∨ ∃ l, entry fs fnmatch true sub d [] n = .ok l) ∧
      (n ≠ [46] ∧ n ≠ [46, 46] ∧ fs.isDir (child d n) = true ∧ (child d n).length + 1 < 256 →
        entry fs fnmatch true sub d [] n = .error .deep) := by
    intro n hne hns
    have hlast : (child d n).getLast? ≠ some slash := by
      unfold child
      rw [List.getLast?_append, List.getLast?_cons]
      intro h
      have hx : n.getLast?.getD slash = slash := by simpa using h
      obtain ⟨y, hy⟩ : ∃ y, n.getLast? = some y := by
        cases h' : n.getLast? with
        | none => simp at h'; exact absurd h' hne
        | some y => exact ⟨y, rfl⟩
      rw [hy] at hx
      simp at hx
      subst hx
      exact hns (List.mem_of_getLast? hy)
    have hcl : (child d n).length = d.length + 1 + n.length := by simp [child]; omega
    have hb : child d n ++ [slash] ++ [] = child d n ++ [slash] := by simp
    have hc : d ++ slash :: n = child d n := rfl
    unfold entry pathLen
    simp only [hc]
    constructor
    · split
      · exact Or.inr ⟨_, rfl⟩
      · split
        · exact Or.inr ⟨_, rfl⟩
        · rw [store_ok (by omega)]
          split
          · split
            · split
              · exact Or.inr ⟨_, rfl⟩
              · rw [store_ok (by all_goals (try rw [if_neg hlast]); simp at *; omega)]
                all_goals (try rw [if_neg hlast])
                rw [hb, hsub n hne hns]
                exact Or.inl rfl
            · exact Or.inr ⟨_, rfl⟩
          · exact Or.inr ⟨_, rfl⟩
    · rintro ⟨h1, h2, h3, h4⟩
      rw [if_neg (by omega), if_neg (fun h => h.elim h1 h2), store_ok (by omega), if_pos h3, if_pos trivial,
        if_neg (by simp; omega), if_neg hlast, hb, store_ok (by simp; omega), hsub n hne hns]
      rfl
  induction names with
  | nil => obtain ⟨n, h, -⟩ := hex; simp at h
  | cons n ns ih =>
    have h0 := hn n (by simp)
    have hns : ∀ m ∈ ns, m ≠ [] ∧ slash ∉ m := fun m hm => hn m (by simp [hm])
    rw [entries]
    rcases (hentry n h0.1 h0.2).1 with h1 | ⟨l, h1⟩
    · rw [h1]; rfl
    · rw [h1]
      obtain ⟨m, hm, hrest⟩ := hex
      rcases List.mem_cons.mp hm with rfl | hm
      · rw [(hentry m h0.1 h0.2).2 hrest] at h1; simp at h1
      · rw [ih hns ⟨m, hm, hrest⟩]; rfl

/-- **C107** fails: with `--recursive` and a path that ends in a slash, as in `/patches/*/`, the tool calls
itself on the same directory without end as soon as that directory has a subdirectory. -/
theorem C107_trailing_slash_diverges (fs : Fs) (fnmatch : Bytes → Bytes → Bool) (hfs : Sound fs)
    (folder name : Bytes) (hd : Folder folder) (hlen : folder.length ≤ 254) (hn : Wildcard name)
    (sub : Bytes) (hs : Lists fs folder sub) (hdir : fs.isDir (child folder sub) = true)
    (hsl : (child folder sub).length + 1 < 256) (fuel : Nat) :
    walk fs fnmatch true fuel (child folder name ++ [slash]) = .error .deep := by
  induction fuel generalizing name with
  | zero => rfl
  | succ fuel ih =>
    rw [walk, dirname_child_nil hn.1 hn.2 (folder_strip hd) hd.1]
    obtain ⟨names, h1, h2, h3, h4⟩ := hs
    rw [h1]
    simp only
    rw [store_ok (by simp; omega)]
    have hbase : basename (child folder name ++ [slash]) = [] := by
      unfold basename
      rw [splitLast_append (b := []) _ (by simp)]
    rw [hbase]
    exact entries_deep fs fnmatch _ folder names (hfs.name folder names h1)
      (fun n hne hns => ih n ⟨hne, hns⟩) ⟨sub, h2, h3, h4, hdir, hsl⟩

/-! ### Examples -/

/-- Directory `d` with the file `a.so` and the directory `s`, which has the file `b.so` and a link `l` to itself. -/
def demo : Fs where
  ls p := if p = [100] then some [[46], [46, 46], [97, 46, 115, 111], [115]]
    else if p.take 3 = [100, 47, 115] ∧ (p.drop 3).length % 2 = 0 ∧ (p.drop 3).length < 300 then
      some [[46], [46, 46], [98, 46, 115, 111], [108]]
    else none
  isDir p := p.getLast? = some 115 || p.getLast? = some 108

theorem demo_sound : Sound demo := by
  constructor
  · intro d names h n hn
    unfold demo at h
    simp only at h
    split at h
    · simp at h; subst h; revert n; decide
    · split at h
      · simp at h; subst h; revert n; decide
      · simp at h
  · intro d names h
    unfold demo at h
    simp only at h
    split at h
    · simp at h; subst h; decide
    · split at h
      · simp at h; subst h; decide
      · simp at h

/-- `*` matches everything. -/
def star (w name : Bytes) : Bool := w == [42] || w == name

example : ∃ l, ∀ fuel, 256 ≤ fuel → walk demo star true fuel (child [100] [42]) = .ok l :=
  C107_search_ends_partial demo star true demo_sound [100] [42] (by decide) (by decide) (by decide)

/-- The patch of the subdirectory is found. -/
example : ∃ l, walk demo star true 256 (child [100] [42]) = .ok l ∧ l.Nodup ∧
    [100, 47, 115, 47, 98, 46, 115, 111] ∈ l := by
  obtain ⟨l, h1, h2, h3⟩ := C106_exactly_patches_partial demo star true demo_sound [100] [42] (by decide) (by decide)
    (by decide) 256 (by decide) (by
      rintro - x name hd ⟨⟨stem, rfl⟩, -⟩
      have : (child x (stem ++ [46, 115, 111])).getLast? = some 111 := by
        unfold child
        have : x ++ slash :: (stem ++ [46, 115, 111]) = (x ++ slash :: stem ++ [46, 115]) ++ [111] := by simp
        rw [this, List.getLast?_append]; rfl
      unfold demo at hd
      simp only [this] at hd
      revert hd; decide)
  refine ⟨l, h1, h3, (h2 _).mpr ⟨[100, 47, 115], [98, 46, 115, 111], ?_, ?_, by decide, ⟨⟨[98], rfl⟩, by decide⟩,
    by decide, by decide⟩⟩
  · unfold Visits
    rw [if_pos rfl]
    refine .down _ [115] _ ⟨⟨_, rfl, by decide, by decide, by decide⟩, by decide, by decide⟩ ?_
    exact .here _
  · exact ⟨[[46], [46, 46], [98, 46, 115, 111], [108]], by decide, by decide, by decide, by decide⟩

/-- `ulp trigger --recursive 'd/*/'` does not end. -/
example (fuel : Nat) : walk demo star true fuel [100, 47, 42, 47] = .error .deep :=
  C107_trailing_slash_diverges demo star demo_sound [100] [42] (by decide) (by decide) (by decide) [115]
    ⟨_, rfl, by decide, by decide, by decide⟩ (by decide) (by decide) fuel

/-- A directory `x.so`. -/
def odd : Fs where
  ls p := if p = [100] then some [[120, 46, 115, 111]] else none
  isDir p := p == [100, 47, 120, 46, 115, 111]

theorem odd_sound : Sound odd := by
  constructor
  · intro d names h n hn
    unfold odd at h
    simp only at h
    split at h
    · simp at h; subst h; revert n; decide
    · simp at h
  · intro d names h
    unfold odd at h
    simp only at h
    split at h
    · simp at h; subst h; decide
    · simp at h

example : ∃ l, walk odd star true 256 (child [100] [42]) = .ok l ∧ child [100, 47, 120, 46, 115, 111] [42] ∈ l :=
  C106_directory_tried_as_file odd star odd_sound [100] [42] (by decide) (by decide) (by decide) 256 (by decide)
    [100] [120, 46, 115, 111] (.here _) ⟨⟨_, rfl, by decide, by decide, by decide⟩, by decide, by decide⟩
    ⟨⟨[120], rfl⟩, by decide⟩

example := C106_files_tried demo star true demo_sound [100] [42] (by decide) (by decide) (by decide) 256 (by decide)
example := C106_files_tried_current demo star true demo_sound [42] (by decide) 256 (by decide)

end Verif.Walk
