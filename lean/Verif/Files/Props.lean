import Verif.Files.Spec
import Verif.Post.Props

/-! C156–C158: commands that look into ELF files. -/

namespace Verif.Files

/-! ### Finding sections -/

theorem findLoop_wide {name : Str} : ∀ {ss : List Sec} {i : Nat}, (∀ s ∈ ss, s.name ≠ none) →
    ((∃ s ∈ ss, s.name = some name) → ∃ j, findLoop true name i ss = .ok (some j)) ∧
    ((¬ ∃ s ∈ ss, s.name = some name) → findLoop true name i ss = .ok none)
  | [], i, _ => ⟨fun ⟨s, h, _⟩ => absurd h (by simp), fun _ => rfl⟩
  | s :: ss, i, hn => by
    have ih := findLoop_wide (name := name) (ss := ss) (i := i + 1) (fun t ht => hn t (by simp [ht]))
    have h0 := hn s (by simp)
    cases hs : s.name with
    | none => exact absurd hs h0
    | some n =>
      by_cases hnm : n = name
      · subst hnm
        refine ⟨fun _ => ⟨i, ?_⟩, fun h => absurd ⟨s, by simp, hs⟩ h⟩
        simp [findLoop, hs]
      · have e : findLoop true name i (s :: ss) = findLoop true name (i + 1) ss := by
          simp [findLoop, hs, hnm]
        rw [e]
        refine ⟨fun ⟨t, ht, he⟩ => ih.1 ?_, fun h => ih.2 (fun ⟨t, ht, he⟩ => h ⟨t, by simp [ht], he⟩)⟩
        rcases List.mem_cons.1 ht with rfl | ht
        · rw [hs, Option.some.injEq] at he; exact absurd he hnm
        · exact ⟨t, ht, he⟩

theorem findLoop_found {wide : Bool} {name : Str} : ∀ {ss : List Sec} {i j : Nat},
    findLoop wide name i ss = .ok (some j) →
    wide = true ∧ i ≤ j ∧ ∃ s, ss[j - i]? = some s ∧ s.name = some name
  | [], i, j, h => by cases h
  | s :: ss, i, j, h => by
    unfold findLoop at h
    cases wide with
    | false => simp at h
    | true =>
      simp only [Bool.not_true, Bool.false_eq_true, if_false] at h
      cases hs : s.name with
      | none => rw [hs] at h; cases h
      | some n =>
        rw [hs] at h
        simp only at h
        by_cases hn : n = name
        · rw [if_pos hn] at h
          simp only [Res.ok.injEq, Option.some.injEq] at h
          subst h; subst hn
          exact ⟨rfl, Nat.le_refl _, s, by simp, hs⟩
        · rw [if_neg hn] at h
          obtain ⟨_, h1, t, h2, h3⟩ := findLoop_found h
          refine ⟨rfl, by omega, t, ?_, h3⟩
          rw [show j - i = (j - (i + 1)) + 1 by omega]
          simpa using h2

theorem findLoop_congr {wide : Bool} {name : Str} : ∀ {ss ts : List Sec} {i : Nat},
    ss.map (·.name) = ts.map (·.name) → findLoop wide name i ss = findLoop wide name i ts
  | [], [], _, _ => rfl
  | [], _ :: _, _, h => by simp at h
  | _ :: _, [], _, h => by simp at h
  | s :: ss, t :: ts, i, h => by
    simp only [List.map_cons, List.cons.injEq] at h
    have ih := findLoop_congr (wide := wide) (name := name) (i := i + 1) h.2
    unfold findLoop
    rw [h.1, ih]

theorem findSection_found {f : File} {name : Str} {i : Nat} (h : findSection f name = .ok (some i)) :
    f.Wide ∧ Has f name := by
  cases f with
  | other => cases h
  | elf wide strtab secs syms =>
    unfold findSection at h
    cases strtab with
    | false => simp at h
    | true =>
      simp only [Bool.not_true, Bool.false_eq_true, if_false] at h
      obtain ⟨hw, _, s, hs, hn⟩ := findLoop_found h
      exact ⟨hw, s, List.mem_of_getElem? hs, hn⟩

/-! ### C156: `ulp livepatchable` -/

/-- **C156** Exit status 0 (and the message "is livepatchable") only for a 64-bit ELF file with a section
`__patchable_function_entries`, whatever the file. -/
theorem C156_yes_has_section (quiet : Bool) (o : Option File) (said : Option Said)
    (h : livepatchable quiet o = (.exit 0, said)) :
    ∃ f, o = some f ∧ f.Wide ∧ Has f entriesName ∧ said = if quiet then none else some .yes := by
  cases o with
  | none => simp [livepatchable] at h
  | some f =>
    refine ⟨f, rfl, ?_⟩
    simp only [livepatchable] at h
    cases hf : findSection f entriesName with
    | ok r =>
      rw [hf] at h
      cases r with
      | none => simp at h
      | some i =>
        simp only [Prod.mk.injEq, true_and] at h
        exact ⟨(findSection_found hf).1, (findSection_found hf).2, h.symm⟩
    | exit n =>
      rw [hf] at h
      simp only [Prod.mk.injEq, Status.exit.injEq] at h
      obtain ⟨rfl, _⟩ := h
      exfalso
      cases f with
      | other => cases hf
      | elf wide strtab secs syms =>
        unfold findSection at hf
        cases strtab with
        | false => simp at hf
        | true =>
          simp only [Bool.not_true, Bool.false_eq_true, if_false] at hf
          have : ∀ (ss : List Sec) i, findLoop wide entriesName i ss ≠ .exit 0 := by
            intro ss
            induction ss with
            | nil => intro i h; cases h
            | cons s ss ih =>
              intro i h
              unfold findLoop at h
              cases wide with
              | false => simp at h
              | true =>
                simp only [Bool.not_true, Bool.false_eq_true, if_false] at h
                cases hs : s.name with
                | none => rw [hs] at h; cases h
                | some n =>
                  rw [hs] at h
                  simp only at h
                  by_cases hn : n = entriesName
                  · rw [if_pos hn] at h; cases h
                  · rw [if_neg hn] at h; exact ih _ h
          exact this _ _ hf
    | abort => rw [hf] at h; simp at h
    | undefined => rw [hf] at h; simp at h

/-- **C156** For a 64-bit ELF file all of whose sections have names the answer is exact.  The full statement, for every file,
does not hold: see `C156_narrow_crashes` and `C156_nameless_crashes`. -/
theorem C156_exact_partial (quiet : Bool) (f : File) (hw : f.Wide) (hn : f.Named) :
    (Has f entriesName → livepatchable quiet (some f) = (.exit 0, if quiet then none else some .yes)) ∧
    (¬ Has f entriesName → livepatchable quiet (some f) = (.exit 1, if quiet then none else some .no)) := by
  cases f with
  | other => exact absurd hw (by simp [File.Wide])
  | elf wide strtab secs syms =>
    obtain ⟨rfl, hn⟩ := hn
    have hw : wide = true := hw
    subst hw
    have h := findLoop_wide (name := entriesName) (ss := secs.tail) (i := 1)
      (fun s hs => hn s (List.mem_of_mem_tail hs))
    have e : findSection (.elf true true secs syms) entriesName = findLoop true entriesName 1 secs.tail := by
      simp [findSection]
    refine ⟨fun hh => ?_, fun hh => ?_⟩
    · obtain ⟨j, hj⟩ := h.1 hh
      simp only [livepatchable, e, hj]
    · simp only [livepatchable, e, h.2 hh]

/-- **C156** A file that cannot be opened, or is no ELF file, is answered with status 1. -/
theorem C156_not_elf (quiet : Bool) :
    livepatchable quiet none = (.exit 1, none) ∧ livepatchable quiet (some .other) = (.exit 1, none) := ⟨rfl, rfl⟩

/-- **C156** A 32-bit ELF file with any section makes the command use a null pointer. -/
theorem C156_narrow_crashes (quiet : Bool) (secs : List Sec) (syms : List (Nat × Nat)) (h : secs.tail ≠ []) :
    livepatchable quiet (some (.elf false true secs syms)) = (.undefined, none) := by
  cases ht : secs.tail with
  | nil => exact absurd ht h
  | cons s ss => simp [livepatchable, findSection, ht, findLoop]

/-- **C156** So does a section without a name in front of the one looked for. -/
theorem C156_nameless_crashes (quiet : Bool) (z : Sec) (pre post : List Sec) (s : Sec) (syms : List (Nat × Nat))
    (hp : ∀ t ∈ pre, t.name ≠ some entriesName) (hs : s.name = none) :
    livepatchable quiet (some (.elf true true (z :: pre ++ s :: post) syms)) = (.undefined, none) := by
  have key : ∀ (pre : List Sec) i, (∀ t ∈ pre, t.name ≠ some entriesName) →
      findLoop true entriesName i (pre ++ s :: post) = .undefined := by
    intro pre
    induction pre with
    | nil => intro i _; simp [findLoop, hs]
    | cons t pre ih =>
      intro i hp
      have h0 := hp t (by simp)
      have ih := ih (i + 1) (fun u hu => hp u (by simp [hu]))
      cases ht : t.name with
      | none => simp [findLoop, ht]
      | some n =>
        have : n ≠ entriesName := fun e => h0 (by rw [ht, e])
        simp [findLoop, ht, this, ih]
  simp [livepatchable, findSection, key pre 1 hp]

/-- **C156** Nothing but the names of the sections counts: the answer is the same whatever the table and the functions are, so
"is livepatchable" does not say that any function of the library can be replaced. -/
theorem C156_contents_ignored (quiet wide strtab : Bool) (secs secs' : List Sec) (syms syms' : List (Nat × Nat))
    (h : (File.elf wide strtab secs syms).names = (File.elf wide strtab secs' syms').names) :
    livepatchable quiet (some (.elf wide strtab secs syms)) = livepatchable quiet (some (.elf wide strtab secs' syms')) := by
  have : secs.tail.map (·.name) = secs'.tail.map (·.name) := by
    simp only [File.names] at h
    rw [List.map_tail, List.map_tail, h]
  unfold livepatchable findSection
  simp only [findLoop_congr this]

/-! ### C157: `ulp post` -/

/-- **C157** If `ulp post` does not exit with status 0, and writing did not fail, the file is as it was. -/
theorem C157_failure_keeps_file (o : Option File) (st : Status) (o' : Option File)
    (h : post none o = (st, o')) (hst : st ≠ .exit 0) : o' = o := by
  cases o with
  | none => simp only [post, Prod.mk.injEq] at h; exact h.2.symm
  | some f =>
    cases f with
    | other => simp only [post, Prod.mk.injEq] at h; exact h.2.symm
    | elf wide strtab secs syms =>
      simp only [post] at h
      cases hf : findSection (.elf wide strtab secs syms) entriesName with
      | ok r =>
        rw [hf] at h
        cases r with
        | none => simp only [Prod.mk.injEq] at h; exact h.2.symm
        | some i =>
          simp only at h
          cases hx : fixup secs syms i with
          | ok e => rw [hx] at h; simp only [Prod.mk.injEq] at h; exact absurd h.1.symm hst
          | exit n => rw [hx] at h; simp only [Prod.mk.injEq] at h; exact h.2.symm
          | abort => rw [hx] at h; simp only [Prod.mk.injEq] at h; exact h.2.symm
          | undefined => rw [hx] at h; simp only [Prod.mk.injEq] at h; exact h.2.symm
      | exit n => rw [hf] at h; simp only [Prod.mk.injEq] at h; exact h.2.symm
      | abort => rw [hf] at h; simp only [Prod.mk.injEq] at h; exact h.2.symm
      | undefined => rw [hf] at h; simp only [Prod.mk.injEq] at h; exact h.2.symm

theorem fixupLoop_eq : ∀ (n : Nat) (e e' : Post.Elf) (d : List UInt8), d.length ≤ 8 * n →
    (∀ a ∈ words d (d.length / 8), a + 14 < 2 ^ 64) → fixupLoop e n d = .ok e' →
    d.length % 8 = 0 ∧ Post.fixup e (words d (d.length / 8)) = .ok e'
  | n, e, e', [], _, _, h => by
    unfold fixupLoop at h
    simp only [Res.ok.injEq] at h
    subst h
    exact ⟨rfl, rfl⟩
  | 0, e, e', x :: xs, hl, _, _ => by simp at hl
  | n + 1, e, e', x :: xs, hl, hw, h => by
    unfold fixupLoop at h
    by_cases h8 : (x :: xs).length < 8
    · rw [if_pos h8] at h; cases h
    · rw [if_neg h8] at h
      have hk : (x :: xs).length / 8 = ((x :: xs).drop 8).length / 8 + 1 := by
        rw [List.length_drop]; omega
      rw [hk, words] at hw
      have h1 := hw _ (List.mem_cons_self ..)
      rw [Nat.mod_eq_of_lt h1] at h
      rw [hk, words, Post.fixup]
      cases hm : Post.mergeAt e (leVal ((x :: xs).take 8) + 14) with
      | abort => rw [hm] at h; cases h
      | ub => rw [hm] at h; cases h
      | ok e1 =>
        rw [hm] at h
        simp only at h ⊢
        obtain ⟨k1, k2⟩ := fixupLoop_eq n e1 e' ((x :: xs).drop 8) (by rw [List.length_drop]; omega)
          (fun a ha => hw a (List.mem_cons_of_mem _ ha)) h
        refine ⟨?_, k2⟩
        rw [List.length_drop] at k1
        omega

theorem fixupLoop_of : ∀ (n : Nat) (e e' : Post.Elf) (d : List UInt8), d.length ≤ 8 * n → d.length % 8 = 0 →
    (∀ a ∈ words d (d.length / 8), a + 14 < 2 ^ 64) → Post.fixup e (words d (d.length / 8)) = .ok e' →
    fixupLoop e n d = .ok e'
  | n, e, e', [], _, _, _, h => by
    simp only [List.length_nil, Nat.zero_div, words, Post.fixup, Post.Res.ok.injEq] at h
    subst h
    unfold fixupLoop
    rfl
  | 0, e, e', x :: xs, hl, _, _, _ => by simp at hl
  | n + 1, e, e', x :: xs, hl, hz, hw, h => by
    unfold fixupLoop
    have h8 : ¬ (x :: xs).length < 8 := by
      simp only [List.length_cons] at hz ⊢
      omega
    rw [if_neg h8]
    have hk : (x :: xs).length / 8 = ((x :: xs).drop 8).length / 8 + 1 := by
      rw [List.length_drop]; omega
    rw [hk, words] at hw h
    have h1 := hw _ (List.mem_cons_self ..)
    rw [Nat.mod_eq_of_lt h1]
    rw [Post.fixup] at h
    cases hm : Post.mergeAt e (leVal ((x :: xs).take 8) + 14) with
    | abort => rw [hm] at h; cases h
    | ub => rw [hm] at h; cases h
    | ok e1 =>
      rw [hm] at h
      simp only at h ⊢
      exact fixupLoop_of n e1 e' _ (by rw [List.length_drop]; omega) (by rw [List.length_drop]; omega)
        (fun a ha => hw a (List.mem_cons_of_mem _ ha)) h

theorem toPost_get {secs : List Sec} {syms : List (Nat × Nat)} {j : Nat} {t : Sec} (h : secs[j]? = some t) :
    (toPost secs syms).secs[j]? = some ⟨t.addr, t.data⟩ := by
  simp [toPost, h]

theorem withData_get {secs : List Sec} {e : Post.Elf} {j : Nat} {t : Sec} {p : Post.Section}
    (h : secs[j]? = some t) (hp : e.secs[j]? = some p) :
    (withData secs e)[j]? = some { t with data := p.data } := by
  simp [withData, List.getElem?_zipWith, h, hp]

/-- What a run with status 0 did. -/
theorem post_ok {wide strtab : Bool} {secs : List Sec} {syms : List (Nat × Nat)} {o : Option File}
    (h : post none (some (.elf wide strtab secs syms)) = (.exit 0, o)) :
    strtab = true ∧ wide = true ∧ ∃ i s e, findLoop true entriesName 1 secs.tail = .ok (some i) ∧ 1 ≤ i
      ∧ secs[i]? = some s ∧ s.name = some entriesName
      ∧ fixupLoop (toPost secs syms) s.data.length s.data = .ok e ∧ o = some (.elf wide strtab (withData secs e) syms) := by
  simp only [post] at h
  cases hf : findSection (.elf wide strtab secs syms) entriesName with
  | ok r =>
    rw [hf] at h
    cases r with
    | none => simp at h
    | some i =>
      simp only at h
      unfold findSection at hf
      cases strtab with
      | false => simp at hf
      | true =>
        simp only [Bool.not_true, Bool.false_eq_true, if_false] at hf
        obtain ⟨rfl, h1, s, hs, hn⟩ := findLoop_found hf
        have hi : secs[i]? = some s := by
          rw [List.getElem?_tail] at hs
          rw [show i = i - 1 + 1 by omega]; exact hs
        refine ⟨rfl, rfl, i, s, ?_⟩
        cases hx : fixup secs syms i with
        | ok e =>
          rw [hx] at h
          simp only [Prod.mk.injEq, true_and] at h
          refine ⟨e, hf, h1, hi, hn, ?_, h.symm⟩
          simpa [fixup, hi] using hx
        | exit n =>
          exfalso
          simp only [fixup, hi] at hx
          have : ∀ (n : Nat) (e : Post.Elf) (d : List UInt8) k, fixupLoop e n d ≠ .exit k := by
            intro n
            induction n with
            | zero => intro e d k; cases d <;> simp [fixupLoop]
            | succ n ih =>
              intro e d k
              cases d with
              | nil => simp [fixupLoop]
              | cons x xs =>
                unfold fixupLoop
                by_cases h8 : (x :: xs).length < 8
                · rw [if_pos h8]; simp
                · rw [if_neg h8]
                  cases Post.mergeAt e ((leVal ((x :: xs).take 8) + 14) % 2 ^ 64) with
                  | ok e1 => exact ih _ _ _
                  | abort => simp
                  | ub => simp
          exact this _ _ _ _ hx
        | abort => rw [hx] at h; simp at h
        | undefined => rw [hx] at h; simp at h
  | exit n =>
    rw [hf] at h
    unfold findSection at hf
    cases strtab with
    | false =>
      simp only [Bool.not_false, if_true, Res.exit.injEq] at hf
      subst hf
      simp at h
    | true =>
      simp only [Bool.not_true, Bool.false_eq_true, if_false] at hf
      exfalso
      have : ∀ (ss : List Sec) i, findLoop wide entriesName i ss ≠ .exit n := by
        intro ss
        induction ss with
        | nil => intro i h; cases h
        | cons s ss ih =>
          intro i h
          unfold findLoop at h
          cases wide with
          | false => simp at h
          | true =>
            simp only [Bool.not_true, Bool.false_eq_true, if_false] at h
            cases hs : s.name with
            | none => rw [hs] at h; cases h
            | some n =>
              rw [hs] at h
              simp only at h
              by_cases hn : n = entriesName
              · rw [if_pos hn] at h; cases h
              · rw [if_neg hn] at h; exact ih _ h
      exact this _ _ hf
  | abort => rw [hf] at h; simp at h
  | undefined => rw [hf] at h; simp at h

/-- **C157** What status 0 says: the file is a 64-bit ELF file with a section `__patchable_function_entries` of whole words, and
all that changed are first NOPs of the functions listed there, to 0x66; names, places and sizes of the sections are as before. -/
theorem C157_success (wide strtab : Bool) (secs : List Sec) (syms : List (Nat × Nat)) (o : Option File)
    (h : post none (some (.elf wide strtab secs syms)) = (.exit 0, o))
    (hw : ∀ s ∈ secs, ∀ a ∈ words s.data (s.data.length / 8), a + 14 < 2 ^ 64) :
    wide = true ∧ ∃ s ∈ secs.tail, s.name = some entriesName ∧ s.data.length % 8 = 0 ∧
      ∃ secs', o = some (.elf wide strtab secs' syms) ∧ secs'.length = secs.length ∧
        ∀ (j : Nat) (t : Sec), secs[j]? = some t → ∃ t', secs'[j]? = some t' ∧ t'.name = t.name ∧ t'.addr = t.addr
          ∧ t'.data.length = t.data.length
          ∧ ∀ k : Nat, t'.data[k]? = t.data[k]? ∨ (FirstNop (words s.data (s.data.length / 8)) t k ∧ t'.data[k]? = some 0x66) := by
  obtain ⟨rfl, rfl, i, s, e, hl, h1, hi, hn, hx, rfl⟩ := post_ok h
  have hsm : s ∈ secs := List.mem_of_getElem? hi
  obtain ⟨k1, k2⟩ := fixupLoop_eq _ _ _ _ (by omega) (hw s hsm) hx
  obtain ⟨f1, f2, f3⟩ := Post.C44_frame _ _ _ k2
  have hst : s ∈ secs.tail := by
    have : secs.tail[i - 1]? = some s := by
      rw [List.getElem?_tail, show i - 1 + 1 = i by omega]; exact hi
    exact List.mem_of_getElem? this
  refine ⟨rfl, s, hst, hn, k1, _, rfl, ?_, fun j t ht => ?_⟩
  · simp [withData, f2, toPost]
  · obtain ⟨p, p1, p2, p3, p4⟩ := f3 j _ (toPost_get ht)
    refine ⟨_, withData_get ht p1, rfl, rfl, p3, fun k => ?_⟩
    rcases p4 k with q | ⟨⟨q1, q2, a, ha, _, q3⟩, q4⟩
    · exact .inl q
    · refine .inr ⟨⟨q1, q2, a, ha, ?_⟩, q4⟩
      rcases q3 with ⟨_, q3⟩ | ⟨_, q3⟩
      · right; simp only at q3; omega
      · left; exact q3

theorem drop_cons {d : List UInt8} {o : Nat} {x : UInt8} (h : d[o]? = some x) : d.drop o = x :: d.drop (o + 1) := by
  have hlt := Post.lt_of_get h
  rw [List.drop_eq_getElem_cons hlt]
  rw [List.getElem?_eq_getElem hlt, Option.some.injEq] at h
  rw [h]

/-- **C157** After status 0 every listed function that has a symbol starts with a single NOP of two bytes, so that one
instruction can be overwritten. -/
theorem C157_functions_ready (wide strtab : Bool) (secs : List Sec) (syms : List (Nat × Nat)) (secs' : List Sec)
    (h : post none (some (.elf wide strtab secs syms)) = (.exit 0, some (.elf wide strtab secs' syms)))
    (s : Sec) (hs : ∀ t ∈ secs.tail, t.name = some entriesName → t = s)
    (hw : ∀ a ∈ words s.data (s.data.length / 8), a + 14 < 2 ^ 64)
    (hap : Post.Apart (words s.data (s.data.length / 8)))
    (a : Nat) (ha : a ∈ words s.data (s.data.length / 8)) (x j : Nat)
    (hf : syms.find? (fun y => y.1 == a + 14) = some (x, j)) :
    ∃ t', secs'[j]? = some t' ∧ Single t' (a + 14) := by
  obtain ⟨rfl, rfl, i, s', e, hl, h1, hi, hn, hx, ho⟩ := post_ok h
  have hst : s' ∈ secs.tail := by
    have : secs.tail[i - 1]? = some s' := by
      rw [List.getElem?_tail, show i - 1 + 1 = i by omega]; exact hi
    exact List.mem_of_getElem? this
  obtain rfl := hs s' hst hn
  simp only [Option.some.injEq, File.elf.injEq, true_and, and_true] at ho
  subst ho
  obtain ⟨k1, k2⟩ := fixupLoop_eq _ _ _ _ (by omega) hw hx
  have hm := Post.fixup_merged (done := []) (by simpa using hap) (by simp) k2 a (by simpa using ha)
  have hsy : e.syms = syms := (Post.C44_frame _ _ _ k2).1
  obtain ⟨p, p1, p2, p3, p4, p5⟩ := hm x j (by rw [hsy]; exact hf)
  have hlen : e.secs.length = secs.length := by
    have := (Post.C44_frame _ _ _ k2).2.1
    simpa [toPost] using this
  have hj : j < secs.length := by
    rw [← hlen]
    apply Classical.byContradiction; intro hc
    rw [List.getElem?_eq_none (by omega)] at p1; cases p1
  obtain ⟨t, ht⟩ : ∃ t, secs[j]? = some t := ⟨_, List.getElem?_eq_getElem hj⟩
  obtain ⟨q, q1, q2, q3, q4⟩ := (Post.C44_frame _ _ _ k2).2.2 j _ (toPost_get ht)
  rw [p1, Option.some.injEq] at q1
  subst q1
  refine ⟨_, withData_get ht p1, ?_⟩
  have q2 : p.addr = t.addr := q2
  refine ⟨by simp only; omega, ?_⟩
  simp only
  rw [← q2]
  by_cases hb : Post.isEndbr p.data (a + 14 - p.addr)
  · left
    simp only [Post.nopOff, if_pos hb] at p4 p5
    obtain ⟨b1, b2, b3, b4⟩ := hb
    refine ⟨p.data.drop (a + 14 - p.addr + 6), ?_⟩
    rw [drop_cons b1, drop_cons b2, drop_cons b3, drop_cons b4, drop_cons p4, drop_cons p5]
    rfl
  · right
    simp only [Post.nopOff, if_neg hb] at p4 p5
    refine ⟨p.data.drop (a + 14 - p.addr + 2), ?_⟩
    rw [drop_cons p4, drop_cons p5]
    rfl

/-- **C157** Running it again succeeds and changes nothing more, and `ulp livepatchable` still says yes. -/
theorem C157_again (wide strtab : Bool) (secs : List Sec) (syms : List (Nat × Nat)) (o : Option File)
    (h : post none (some (.elf wide strtab secs syms)) = (.exit 0, o))
    (s : Sec) (hs : ∀ t ∈ secs.tail, t.name = some entriesName → t = s)
    (hw : ∀ a ∈ words s.data (s.data.length / 8), a + 14 < 2 ^ 64)
    (hap : Post.Apart (words s.data (s.data.length / 8)))
    (hd : ∀ k, ¬ FirstNop (words s.data (s.data.length / 8)) s k) (quiet : Bool) :
    post none o = (.exit 0, o) ∧ livepatchable quiet o = (.exit 0, if quiet then none else some .yes) := by
  obtain ⟨rfl, rfl, i, s', e, hl, h1, hi, hn, hx, rfl⟩ := post_ok h
  have hst : s' ∈ secs.tail := by
    have : secs.tail[i - 1]? = some s' := by
      rw [List.getElem?_tail, show i - 1 + 1 = i by omega]; exact hi
    exact List.mem_of_getElem? this
  obtain rfl := hs s' hst hn
  obtain ⟨k1, k2⟩ := fixupLoop_eq _ _ _ _ (by omega) hw hx
  obtain ⟨f1, f2, f3⟩ := Post.C44_frame _ _ _ k2
  have hid := Post.C44_idempotent _ _ _ hap k2
  have hlen : e.secs.length = secs.length := by simpa [toPost] using f2
  -- every section of the new file, as `Verif.Post` sees it
  have hto : toPost (withData secs e) syms = e := by
    have : (withData secs e).map (fun t => (⟨t.addr, t.data⟩ : Post.Section)) = e.secs := by
      apply List.ext_getElem?
      intro j
      rw [List.getElem?_map]
      by_cases hj : j < secs.length
      · obtain ⟨t, ht⟩ : ∃ t, secs[j]? = some t := ⟨_, List.getElem?_eq_getElem hj⟩
        obtain ⟨q, q1, q2, q3, q4⟩ := f3 j _ (toPost_get ht)
        rw [withData_get ht q1, q1]
        have q2 : q.addr = t.addr := q2
        simp [← q2]
      · rw [List.getElem?_eq_none (l := e.secs) (by omega),
          List.getElem?_eq_none (by simp [withData, hlen]; omega)]
        rfl
    have h2 : e.syms = syms := f1
    rw [toPost, this, ← h2]
  -- the table is as before
  obtain ⟨q, q1, q2, q3, q4⟩ := f3 i _ (toPost_get hi)
  have hq : q.data = s'.data := by
    apply List.ext_getElem?
    intro k
    rcases q4 k with g | ⟨⟨g1, g2, a, ha, _, g3⟩, g4⟩
    · exact g
    · exfalso
      apply hd k
      refine ⟨g1, g2, a, ha, ?_⟩
      rcases g3 with ⟨_, g3⟩ | ⟨_, g3⟩
      · right; simp only at g3; omega
      · left; exact g3
  have hnames : (withData secs e).tail.map (·.name) = secs.tail.map (·.name) := by
    have : (withData secs e).map (·.name) = secs.map (·.name) := by
      apply List.ext_getElem?
      intro j
      rw [List.getElem?_map, List.getElem?_map]
      by_cases hj : j < secs.length
      · obtain ⟨t, ht⟩ : ∃ t, secs[j]? = some t := ⟨_, List.getElem?_eq_getElem hj⟩
        obtain ⟨q, q1, _⟩ := f3 j _ (toPost_get ht)
        rw [withData_get ht q1, ht]
        rfl
      · rw [List.getElem?_eq_none (l := secs) (by omega),
          List.getElem?_eq_none (by simp [withData, hlen]; omega)]
    rw [List.map_tail, List.map_tail, this]
  have hfind : findSection (.elf true true (withData secs e) syms) entriesName = .ok (some i) := by
    simp only [findSection, Bool.not_true, Bool.false_eq_true, if_false]
    rw [findLoop_congr hnames]; exact hl
  have hfix : fixup (withData secs e) syms i = .ok e := by
    simp only [fixup, withData_get hi q1, hto, hq]
    exact fixupLoop_of _ _ _ _ (by omega) k1 hw hid
  refine ⟨?_, by simp only [livepatchable, hfind]⟩
  simp only [post, hfind, hfix]
  have : withData (withData secs e) e = withData secs e := by
    apply List.ext_getElem?
    intro j
    by_cases hj : j < secs.length
    · obtain ⟨t, ht⟩ : ∃ t, secs[j]? = some t := ⟨_, List.getElem?_eq_getElem hj⟩
      obtain ⟨q, q1, _⟩ := f3 j _ (toPost_get ht)
      have := withData_get ht q1
      rw [withData_get this q1, this]
    · rw [List.getElem?_eq_none (by simp [withData, hlen]; omega),
        List.getElem?_eq_none (by simp [withData, hlen]; omega)]
  rw [this]

/-- **C157** Status 0 does not say that any function was prepared: if none of the listed addresses has a symbol (a library
without .symtab has those of .dynsym only), nothing is changed and the status is 0 all the same. -/
theorem C157_nothing_done_is_success (z : Sec) (pre rest : List Sec) (s : Sec) (syms : List (Nat × Nat))
    (hp : ∀ t ∈ pre, t.name ≠ none ∧ t.name ≠ some entriesName) (hs : s.name = some entriesName)
    (h8 : s.data.length % 8 = 0)
    (hno : ∀ a ∈ words s.data (s.data.length / 8), syms.find? (fun y => y.1 == (a + 14) % 2 ^ 64) = none) :
    post none (some (.elf true true (z :: pre ++ s :: rest) syms)) =
      (.exit 0, some (.elf true true (z :: pre ++ s :: rest) syms)) := by
  have key : ∀ (pre : List Sec) i, (∀ t ∈ pre, t.name ≠ none ∧ t.name ≠ some entriesName) →
      findLoop true entriesName i (pre ++ s :: rest) = .ok (some (i + pre.length)) := by
    intro pre
    induction pre with
    | nil => intro i _; simp [findLoop, hs]
    | cons t pre ih =>
      intro i hp
      obtain ⟨h0, h1⟩ := hp t (by simp)
      have ih := ih (i + 1) (fun u hu => hp u (by simp [hu]))
      cases ht : t.name with
      | none => exact absurd ht h0
      | some n =>
        have : n ≠ entriesName := fun e => h1 (by rw [ht, e])
        simp only [List.cons_append, findLoop, ht, Bool.not_true, Bool.false_eq_true, if_false, if_neg this, ih,
          List.length_cons, Res.ok.injEq, Option.some.injEq]
        omega
  have hx : ∀ (n : Nat) (d : List UInt8) (e : Post.Elf), d.length ≤ 8 * n → d.length % 8 = 0 →
      (∀ a ∈ words d (d.length / 8), e.syms.find? (fun y => y.1 == (a + 14) % 2 ^ 64) = none) →
      fixupLoop e n d = .ok e := by
    intro n
    induction n with
    | zero => intro d e hl _ _; cases d <;> simp [fixupLoop] at hl ⊢
    | succ n ih =>
      intro d e hl hz hno
      cases d with
      | nil => simp [fixupLoop]
      | cons x xs =>
        have h8 : ¬ (x :: xs).length < 8 := by simp only [List.length_cons] at hz ⊢; omega
        have hk : (x :: xs).length / 8 = ((x :: xs).drop 8).length / 8 + 1 := by
          rw [List.length_drop]; omega
        rw [hk, words] at hno
        unfold fixupLoop
        rw [if_neg h8]
        simp only [Post.mergeAt, hno _ (List.mem_cons_self ..)]
        exact ih _ e (by rw [List.length_drop]; omega) (by rw [List.length_drop]; omega)
          (fun a ha => hno a (List.mem_cons_of_mem _ ha))
  have hg : (z :: pre ++ s :: rest)[1 + pre.length]? = some s := by
    rw [Nat.add_comm]
    simp
  have hfix : fixup (z :: pre ++ s :: rest) syms (1 + pre.length) = .ok (toPost (z :: pre ++ s :: rest) syms) := by
    simp only [fixup, hg]
    exact hx _ _ _ (by omega) h8 hno
  have hfind : findSection (.elf true true (z :: pre ++ s :: rest) syms) entriesName = .ok (some (1 + pre.length)) := by
    simp only [findSection, Bool.not_true, Bool.false_eq_true, if_false]
    exact key pre 1 hp
  have hwd : ∀ l : List Sec, withData l (toPost l syms) = l := by
    intro l
    apply List.ext_getElem?
    intro j
    cases hj : l[j]? with
    | none =>
      have := List.getElem?_eq_none_iff.1 hj
      rw [List.getElem?_eq_none]; simp [withData, toPost]; omega
    | some t => rw [withData_get hj (toPost_get hj)]
  simp only [post, hfind, hfix, hwd]

/-- **C157** What is not done: a file that is no ELF file ends in an assertion instead of a message; if writing fails the file
may be anything (status 1). -/
theorem C157_bad_ends (d : Option File) : post d (some .other) = (.abort, some .other) ∧
    ∀ (wide strtab : Bool) (secs : List Sec) (syms : List (Nat × Nat)) (o : Option File),
      post none (some (.elf wide strtab secs syms)) = (.exit 0, o) →
      ∀ x, post (some x) (some (.elf wide strtab secs syms)) = (.exit 1, some x) := by
  refine ⟨rfl, fun wide strtab secs syms o h x => ?_⟩
  obtain ⟨rfl, rfl, i, s, e, hl, h1, hi, hn, hx, rfl⟩ := post_ok h
  have hfind : findSection (.elf true true secs syms) entriesName = .ok (some i) := by
    simp only [findSection, Bool.not_true, Bool.false_eq_true, if_false]; exact hl
  have hfix : fixup secs syms i = .ok e := by simp only [fixup, hi]; exact hx
  simp only [post, hfind, hfix]

/-! ### C158: sections of livepatches -/

theorem scnLoop_named {name : Str} : ∀ {ss : List Sec}, (∀ s ∈ ss, s.name ≠ none) →
    scnLoop true name ss = .ok (ss.find? (fun s => s.name == some name))
  | [], _ => rfl
  | s :: ss, hn => by
    have ih := scnLoop_named (name := name) (ss := ss) (fun t ht => hn t (by simp [ht]))
    have h0 := hn s (by simp)
    cases hs : s.name with
    | none => exact absurd hs h0
    | some n =>
      by_cases hnm : n = name
      · subst hnm
        simp [scnLoop, hs]
      · simp [scnLoop, hs, hnm, ih]

/-- **C158** The comments shown for a livepatch are the contents of its section `.ulp.comments`, if it has one that is not
empty.  The full statement, for every file, does not hold: see `C158_no_names_undefined`. -/
theorem C158_comments_partial (wide strtab : Bool) (secs : List Sec) (syms : List (Nat × Nat))
    (hn : (File.elf wide strtab secs syms).Named) :
    comments (some (.elf wide strtab secs syms)) =
      .ok ((secs.find? (fun s => s.name == some commentsName)).bind fun s => if s.data = [] then none else some s.data) := by
  obtain ⟨rfl, hn⟩ := hn
  simp only [comments, scnByName, scnLoop_named hn]
  cases secs.find? (fun s => s.name == some commentsName) <;> rfl

/-- **C158** There are none for a file that cannot be opened or is no ELF file. -/
theorem C158_no_file : comments none = .ok none ∧ comments (some .other) = .ok none := ⟨rfl, rfl⟩

/-- **C158** An ELF file with sections but without names of sections makes the command compare with a null pointer. -/
theorem C158_no_names_undefined (wide strtab : Bool) (s : Sec) (secs : List Sec) (syms : List (Nat × Nat))
    (h : strtab = false ∨ s.name = none) : comments (some (.elf wide strtab (s :: secs) syms)) = .undefined := by
  rcases h with rfl | h
  · simp [comments, scnByName, scnLoop]
  · cases strtab <;> simp [comments, scnByName, scnLoop, h]

/-! ### Cases -/

def nul : Sec := ⟨some [], 0, []⟩

/-- A library with two functions, at 0x100e and (with `endbr64`) at 0x102e, both listed. -/
def text : Sec :=
  ⟨some ".text".toUTF8.toList, 0x1000, List.replicate 16 0x90 ++ [0xc3] ++ List.replicate 15 0xcc ++ List.replicate 14 0x90
      ++ [0xf3, 0x0f, 0x1e, 0xfa, 0x90, 0x90, 0xc3]⟩

def table : Sec := ⟨some entriesName, 0x3000, le 8 0x1000 ++ le 8 0x1020⟩

def libFile : File := .elf true true [nul, text, table] [(0, 0), (0x100e, 1), (0x102e, 1)]

example : livepatchable false (some libFile) = (.exit 0, some .yes) := by decide +kernel

example := C156_yes_has_section false (some libFile) _ (show livepatchable false (some libFile) = (.exit 0, some .yes) by decide +kernel)

example : libFile.Wide ∧ libFile.Named ∧ Has libFile entriesName := by
  refine ⟨rfl, ⟨rfl, ?_⟩, table, by simp, rfl⟩
  simp [nul, text, table]

example := C156_exact_partial true (.elf true true [nul, text] []) rfl ⟨rfl, by simp [nul, text]⟩

example := C156_narrow_crashes false [nul, text, table] [] (by simp)

example := C156_nameless_crashes false nul [text] [table] ⟨none, 0, []⟩ [] (by simp [text]; decide +kernel) rfl

/-- An empty table, and a library without any function, get the same answer. -/
example : livepatchable false (some (.elf true true [nul, ⟨text.name, 0, []⟩, ⟨table.name, 0, []⟩] [])) = (.exit 0, some .yes) := by
  rw [← C156_contents_ignored false true true [nul, text, table] _ [(0, 0), (0x100e, 1), (0x102e, 1)] [] (by rfl)]
  decide +kernel

/-- The same library after `ulp post`. -/
def text' : Sec :=
  ⟨some ".text".toUTF8.toList, 0x1000, List.replicate 14 0x90 ++ [0x66, 0x90, 0xc3] ++ List.replicate 15 0xcc ++ List.replicate 14 0x90
      ++ [0xf3, 0x0f, 0x1e, 0xfa, 0x66, 0x90, 0xc3]⟩

def libFile' : File := .elf true true [nul, text', table] [(0, 0), (0x100e, 1), (0x102e, 1)]

theorem demo_post : post none (some libFile) = (.exit 0, some libFile') := by decide +kernel

theorem demo_words : words table.data (table.data.length / 8) = [0x1000, 0x1020] := by decide +kernel

theorem demo_apart : Post.Apart (words table.data (table.data.length / 8)) := by
  rw [demo_words]; intro a ha b hb; simp at ha hb; omega

theorem demo_low : ∀ a ∈ words table.data (table.data.length / 8), a + 14 < 2 ^ 64 := by
  rw [demo_words]; intro a ha; simp at ha; omega

theorem demo_only : ∀ t ∈ [nul, text, table].tail, t.name = some entriesName → t = table := by
  intro t ht h
  simp only [List.tail_cons, List.mem_cons, List.not_mem_nil, or_false] at ht
  rcases ht with rfl | rfl
  · exact absurd h (by decide +kernel)
  · rfl

example := C157_functions_ready true true _ _ _ demo_post table demo_only demo_low demo_apart 0x1020
  (by rw [demo_words]; simp) 0x102e 1 (by decide +kernel)

example := C157_again true true _ _ _ demo_post table demo_only demo_low demo_apart
  (by rw [demo_words]; rintro k ⟨-, -, a, ha, hk⟩; simp [table] at ha hk; omega) false

example : ∃ o, post none (some libFile) = (.exit 0, o) := ⟨_, demo_post⟩

example := C157_success true true _ _ _ demo_post (by decide +kernel)

example := C157_failure_keeps_file (some (.elf true true [nul, text] [])) (.exit 1) _
  (show post none (some (.elf true true [nul, text] [])) = (.exit 1, some (.elf true true [nul, text] [])) by decide +kernel) (by simp)

/-- Two NOPs are missing: an assertion fails, and the file is as it was. -/
example : post none (some (.elf true true [nul, ⟨text.name, 0x1000, List.replicate 60 0xcc⟩, table] [(0x100e, 1)])) =
    (.abort, some (.elf true true [nul, ⟨text.name, 0x1000, List.replicate 60 0xcc⟩, table] [(0x100e, 1)])) := by decide +kernel

example := C157_nothing_done_is_success nul [text] [] table [] (by simp [text]; decide +kernel) rfl (by decide +kernel) (by simp)

example := (C157_bad_ends none).2 true true _ _ _ demo_post .other

example : comments (some (.elf true true [nul, text, ⟨some commentsName, 0, [66, 83, 67]⟩] [])) = .ok (some [66, 83, 67]) := by
  rw [C158_comments_partial true true _ [] ⟨rfl, by simp [nul, text]⟩]
  decide +kernel

example := C158_no_names_undefined true false nul [text] [] (.inl rfl)

end Verif.Files
