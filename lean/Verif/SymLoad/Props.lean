import Verif.SymLoad.Model
import Verif.Runtime.Lemmas

/-! Properties C68, C69, C70. -/

namespace Verif.SymLoad

/-! ### Specification -/

/-- The object has one symbol table and string table the dynamic linker knows, with entries of the
size of `Elf64_Sym`. -/
def HasTables (o : Obj) : Prop :=
  (∃ d ∈ o.dyns, ∃ t, Dyn.symtab t ∈ d) ∧ (∃ d ∈ o.dyns, Dyn.strtab ∈ d) ∧
  ∀ d ∈ o.dyns, ∀ v, Dyn.syment v ∈ d → v = 24

/-- The path of the object has `lib` somewhere in it. -/
def Mentions (lib : Str) (o : Obj) : Prop := lib <:+: o.name

/-! ### Lemmas -/

theorem startsWith_iff (h n : Str) : startsWith h n = true ↔ n <+: h := by
  induction n generalizing h with
  | nil => simp [startsWith]
  | cons n ns ih =>
    cases h with
    | nil => simp [startsWith]
    | cons h hs =>
      simp only [startsWith, Bool.and_eq_true, beq_iff_eq, ih, List.cons_prefix_cons]
      constructor
      · rintro ⟨a, b⟩; exact ⟨a.symm, b⟩
      · rintro ⟨a, b⟩; exact ⟨a.symm, b⟩

theorem strstr_iff (h n : Str) : strstr h n = true ↔ n <:+: h := by
  induction h with
  | nil => simp [strstr, startsWith_iff]
  | cons h hs ih => simp [strstr, startsWith_iff, ih, List.infix_cons_iff]

theorem scanDyn_some (d : List Dyn) (f : Found) (h : ∀ v, Dyn.syment v ∈ d → v = 24) :
    ∃ f', scanDyn d f = some f' ∧ ((f.dynsym.isSome ∨ ∃ t, Dyn.symtab t ∈ d) → f'.dynsym.isSome) ∧
      ((f.dynstr = true ∨ Dyn.strtab ∈ d) → f'.dynstr = true) := by
  induction d generalizing f with
  | nil => exact ⟨f, rfl, by simp, by simp⟩
  | cons x xs ih =>
    have h' : ∀ v, Dyn.syment v ∈ xs → v = 24 := fun v hv => h v (by simp [hv])
    cases x with
    | symtab t =>
      obtain ⟨f', e, a, b⟩ := ih { f with dynsym := some t } h'
      exact ⟨f', by simpa [scanDyn] using e, fun _ => a (by simp), fun hb => b (by simpa using hb)⟩
    | strtab =>
      obtain ⟨f', e, a, b⟩ := ih { f with dynstr := true } h'
      exact ⟨f', by simpa [scanDyn] using e, fun ha => a (by simpa using ha), fun hb => b (by simp)⟩
    | syment v =>
      obtain ⟨f', e, a, b⟩ := ih f h'
      have : v = 24 := h v (by simp)
      exact ⟨f', by simpa [scanDyn, this] using e, fun ha => a (by simpa using ha), fun hb => b (by simpa using hb)⟩
    | hash n =>
      obtain ⟨f', e, a, b⟩ := ih { f with num := n } h'
      exact ⟨f', by simpa [scanDyn] using e, fun ha => a (by simpa using ha), fun hb => b (by simpa using hb)⟩
    | other =>
      obtain ⟨f', e, a, b⟩ := ih f h'
      exact ⟨f', by simpa [scanDyn] using e, fun ha => a (by simpa using ha), fun hb => b (by simpa using hb)⟩

theorem scanDyns_some (ds : List (List Dyn)) (f : Found) (h : ∀ d ∈ ds, ∀ v, Dyn.syment v ∈ d → v = 24) :
    ∃ f', scanDyns ds f = some f' ∧ ((f.dynsym.isSome ∨ ∃ d ∈ ds, ∃ t, Dyn.symtab t ∈ d) → f'.dynsym.isSome) ∧
      ((f.dynstr = true ∨ ∃ d ∈ ds, Dyn.strtab ∈ d) → f'.dynstr = true) := by
  induction ds generalizing f with
  | nil => exact ⟨f, rfl, by simp, by simp⟩
  | cons d ds ih =>
    obtain ⟨g, e, a, b⟩ := scanDyn_some d f (h d (by simp))
    obtain ⟨f', e', a', b'⟩ := ih g (fun d hd => h d (by simp [hd]))
    refine ⟨f', by simp [scanDyns, e, e'], ?_, ?_⟩
    · intro ha
      apply a'
      rcases ha with ha | ⟨d', hd, t, ht⟩
      · exact Or.inl (a (Or.inl ha))
      · rcases List.mem_cons.mp hd with rfl | hd
        · exact Or.inl (a (Or.inr ⟨t, ht⟩))
        · exact Or.inr ⟨d', hd, t, ht⟩
    · intro hb
      apply b'
      rcases hb with hb | ⟨d', hd, ht⟩
      · exact Or.inl (b (Or.inl hb))
      · rcases List.mem_cons.mp hd with rfl | hd
        · exact Or.inl (b (Or.inr ht))
        · exact Or.inr ⟨d', hd, ht⟩

theorem hasTables_scan {o : Obj} (h : HasTables o) :
    ∃ t n, scanDyns o.dyns ⟨none, false, 0⟩ = some ⟨some t, true, n⟩ := by
  obtain ⟨⟨ds, st, n⟩, e, a, b⟩ := scanDyns_some o.dyns ⟨none, false, 0⟩ h.2.2
  have a' := a (Or.inr h.1)
  have b' := b (Or.inr h.2.1)
  simp only at a' b'
  obtain ⟨t, rfl⟩ := Option.isSome_iff_exists.mp a'
  exact ⟨t, n, by rw [e, b']⟩

theorem iter_skip (lib sym : Str) (pre rest : List Obj) (h : ∀ p ∈ pre, ¬ Mentions lib p ∨ p.name = vdso) :
    iterSymbol lib sym (pre ++ rest) ⟨0, 0, 0, false⟩ = iterSymbol lib sym rest ⟨0, 0, 0, false⟩ := by
  induction pre with
  | nil => rfl
  | cons p pre ih =>
    have ih := ih (fun q hq => h q (by simp [hq]))
    have : findSymbol lib sym p ⟨0, 0, 0, false⟩ = (⟨0, 0, 0, false⟩, false) := by
      unfold findSymbol
      rcases h p (by simp) with h | h
      · rw [Mentions, ← strstr_iff] at h
        simp [h]
      · simp [h]
    rw [List.cons_append, iterSymbol, this]
    exact ih

theorem iter_hit (lib sym : Str) (o : Obj) (post : List Obj) (hv : o.name ≠ vdso) (hm : Mentions lib o)
    {t : Nat → Sym} {n : Nat} (ht : scanDyns o.dyns ⟨none, false, 0⟩ = some ⟨some t, true, n⟩) :
    iterSymbol lib sym (o :: post) ⟨0, 0, 0, false⟩ =
      match getSymbolByName t sym n 0 with
      | some s => ⟨s.value, s.size, o.bias, false⟩
      | none => ⟨0, 0, o.bias, false⟩ := by
  rw [iterSymbol, findSymbol]
  have hm' : strstr o.name lib = true := (strstr_iff _ _).mpr hm
  simp only [hm', Bool.not_true, Bool.false_eq_true, if_false, hv, ht]
  cases getSymbolByName t sym n 0 <;> rfl

theorem getSymbolByName_some {t : Nat → Sym} {name : Str} {n i : Nat} {s : Sym}
    (h : getSymbolByName t name n i = some s) : ∃ j, i ≤ j ∧ j < i + n ∧ t j = s ∧ s.name = name := by
  induction n generalizing i with
  | zero => simp [getSymbolByName] at h
  | succ n ih =>
    rw [getSymbolByName] at h
    split at h
    · rename_i hn
      refine ⟨i, by omega, by omega, by simpa using h, ?_⟩
      simp only [Option.some.injEq] at h; rw [← h]; exact hn
    · obtain ⟨j, h1, h2, h3⟩ := ih h
      exact ⟨j, by omega, by omega, h3⟩

theorem base_skip (lib : Str) (pre rest : List Obj) (r : Nat × Option Nat)
    (h : ∀ p ∈ pre, ¬ Mentions lib p ∨ p.name = vdso) :
    ∃ r', iterBase lib (pre ++ rest) r = iterBase lib rest r' ∧ (pre ≠ [] → r' = (0xff, none)) ∧ (pre = [] → r' = r) := by
  induction pre generalizing r with
  | nil => exact ⟨r, rfl, by simp, by simp⟩
  | cons p pre ih =>
    obtain ⟨r', e, a, b⟩ := ih (0xff, none) (fun q hq => h q (by simp [hq]))
    refine ⟨r', ?_, ?_, by simp⟩
    · rw [List.cons_append, iterBase]
      by_cases hv : p.name = vdso
      · rw [if_pos hv]; exact e
      · rw [if_neg hv]
        have := (h p (by simp)).resolve_right hv
        rw [Mentions, ← strstr_iff] at this
        rw [if_pos (by simp [this])]; exact e
    · intro _
      by_cases hp : pre = []
      · exact b hp
      · exact a hp

theorem base_hit (lib : Str) (o : Obj) (post : List Obj) (r : Nat × Option Nat) (hv : o.name ≠ vdso)
    (hm : Mentions lib o) : iterBase lib (o :: post) r = (o.bias, some o.tls) := by
  have hm' : strstr o.name lib = true := (strstr_iff _ _).mpr hm
  rw [iterBase, if_neg hv, if_neg (by simp [hm'])]

theorem addr_of_offset (objs : List Obj) (prog lib sym : Str) (off : Nat) (h : off ≠ 0) :
    (getLoadedSymbolAddr objs prog lib sym off).1 =
      ((iterSymbol (searchName prog lib) sym objs ⟨0, 0, 0, false⟩).bias + off) % 2 ^ 64 := by
  unfold getLoadedSymbolAddr
  simp only
  generalize iterSymbol (searchName prog lib) sym objs ⟨0, 0, 0, false⟩ = a
  by_cases ha : a.addr = off
  · rw [if_neg (by simp [ha]), if_neg (by omega), ha]
  · rw [if_pos ⟨h, ha⟩]

theorem iter_bias (lib sym : Str) (pre post : List Obj) (o : Obj)
    (hpre : ∀ p ∈ pre, ¬ Mentions lib p ∨ p.name = vdso) (hv : o.name ≠ vdso) (hm : Mentions lib o) (ht : HasTables o) :
    (iterSymbol lib sym (pre ++ o :: post) ⟨0, 0, 0, false⟩).bias = o.bias := by
  obtain ⟨t, n, hs⟩ := hasTables_scan ht
  rw [iter_skip _ _ _ _ hpre, iter_hit lib sym o post hv hm hs]
  split <;> rfl

theorem basename_infix (s : Str) : getBasename s <:+: s := (List.drop_suffix _ _).isInfix

/-! A program with three objects, for the examples. -/

def demoTab (n : Str) (i : Nat) : Sym := if i = 1 then ⟨n, 0x1230, 16⟩ else ⟨[], 0, 0⟩
def demoObj (name : String) (bias tls : Nat) (sym : String) : Obj :=
  ⟨name.toUTF8.toList, bias, tls, [[.strtab, .symtab (demoTab sym.toUTF8.toList), .syment 24, .hash 2]]⟩
def demoMain : Obj := demoObj "" 0x400000 1 "main"
def demoBar : Obj := demoObj "/opt/libfoo.so.1-plugins/libbar.so" 0x7f0000 2 "bar"
def demoFoo : Obj := demoObj "/lib64/libfoo.so.1" 0x7e0000 3 "foo"
def demoLib : Str := "libfoo.so.1".toUTF8.toList
def demoProg : Str := "prog".toUTF8.toList

theorem demoObj_tables (name : String) (bias tls : Nat) (sym : String) : HasTables (demoObj name bias tls sym) := by
  refine ⟨⟨_, List.mem_singleton.mpr rfl, demoTab sym.toUTF8.toList, by simp⟩,
    ⟨_, List.mem_singleton.mpr rfl, by simp⟩, ?_⟩
  intro d hd v hv
  simp only [demoObj, List.mem_singleton] at hd
  subst hd
  simpa using hv

theorem demo_not_main : ¬ Mentions demoLib demoMain := by
  rw [Mentions, ← strstr_iff]; decide +kernel

/-! ### C68 -/

/-- **C68 (negation)** The library of a livepatch is looked for with `strstr` in the paths of the
loaded objects, and the first one wins: an object before the named library whose path merely has the
library's name somewhere in it is taken instead. Its functions are patched, and data references point
into it. -/
theorem C68_wrong_library (prog lib sym : Str) (off : Nat) (pre mid post : List Obj) (wrong right : Obj)
    (hprog : lib ≠ prog) (hoff : off ≠ 0)
    (hpre : ∀ p ∈ pre, ¬ Mentions lib p ∨ p.name = vdso)
    (hw : Mentions lib wrong) (hwv : wrong.name ≠ vdso) (hwt : HasTables wrong)
    (hright : getBasename right.name = lib) (hb : right.bias ≠ wrong.bias)
    (h1 : wrong.bias + off < 2 ^ 64) (h2 : right.bias + off < 2 ^ 64) :
    let objs := pre ++ wrong :: mid ++ right :: post
    (getLoadedSymbolAddr objs prog lib sym off).1 = wrong.bias + off ∧
    (getLoadedSymbolAddr objs prog lib sym off).1 ≠ right.bias + off ∧
    baseAddr objs prog lib = wrong.bias ∧ tlsIndex objs prog lib = some wrong.tls := by
  simp only [List.append_assoc, List.cons_append]
  have hs : searchName prog lib = lib := by simp [searchName, hprog]
  have e : (getLoadedSymbolAddr (pre ++ wrong :: (mid ++ right :: post)) prog lib sym off).1 = wrong.bias + off := by
    rw [addr_of_offset _ _ _ _ _ hoff, hs, iter_bias _ _ _ _ _ hpre hwv hw hwt, Nat.mod_eq_of_lt h1]
  obtain ⟨r', hr, -⟩ := base_skip lib pre (wrong :: (mid ++ right :: post)) (0, some 0) hpre
  refine ⟨e, by rw [e]; omega, ?_, ?_⟩
  · rw [baseAddr, hs, hr, base_hit _ _ _ _ hwv hw]
  · rw [tlsIndex, hs, hr, base_hit _ _ _ _ hwv hw]

/-- A plugin below a directory named after the library is patched instead of the library. -/
example : (getLoadedSymbolAddr ([demoMain] ++ demoBar :: [] ++ demoFoo :: []) demoProg demoLib [102] 0x1230).1
    = 0x7f1230 :=
  (C68_wrong_library demoProg demoLib [102] 0x1230 [demoMain] [] [] demoBar demoFoo (by decide +kernel) (by decide)
    (by intro p hp; left; rw [List.mem_singleton.mp hp]; exact demo_not_main)
    ((strstr_iff _ _).mp (by decide +kernel)) (by decide +kernel) (demoObj_tables _ _ _ _) (by decide +kernel)
    (by decide) (by decide) (by decide)).1

/-- **C68 (negation)** If the program was started under the name of the library, the first object,
which is the program itself, is taken for the library. -/
theorem C68_program_named_like_library (lib sym : Str) (off : Nat) (main : Obj) (objs : List Obj)
    (hoff : off ≠ 0) (hv : main.name ≠ vdso) (ht : HasTables main) (h1 : main.bias + off < 2 ^ 64) :
    (getLoadedSymbolAddr (main :: objs) lib lib sym off).1 = main.bias + off ∧
    baseAddr (main :: objs) lib lib = main.bias ∧ tlsIndex (main :: objs) lib lib = some main.tls := by
  have hs : searchName lib lib = [] := by simp [searchName]
  have hm : Mentions [] main := List.nil_infix
  refine ⟨?_, ?_, ?_⟩
  · rw [addr_of_offset _ _ _ _ _ hoff, hs]
    have := iter_bias [] sym [] objs main (by simp) hv hm ht
    simp only [List.nil_append] at this
    rw [this, Nat.mod_eq_of_lt h1]
  · rw [baseAddr, hs, base_hit _ _ _ _ hv hm]
  · rw [tlsIndex, hs, base_hit _ _ _ _ hv hm]

example : (getLoadedSymbolAddr [demoMain, demoFoo] demoLib demoLib [102] 0x1230).1 = 0x401230 :=
  (C68_program_named_like_library demoLib [102] 0x1230 demoMain [demoFoo] (by decide) (by decide +kernel)
    (demoObj_tables _ _ _ _) (by decide)).1

/-- **C68, partial** If no object before the named library has the library's name in its path, then
function addresses are the library's load address plus the offset in the livepatch, and data
references are resolved against the same library. Missing: the cases of the negations above. -/
theorem C68_named_library_partial (prog lib sym : Str) (off : Nat) (pre post : List Obj) (right : Obj)
    (hprog : lib ≠ prog) (hoff : off ≠ 0)
    (hpre : ∀ p ∈ pre, ¬ Mentions lib p ∨ p.name = vdso)
    (hright : getBasename right.name = lib) (hv : right.name ≠ vdso) (ht : HasTables right)
    (h2 : right.bias + off < 2 ^ 64) :
    (getLoadedSymbolAddr (pre ++ right :: post) prog lib sym off).1 = right.bias + off ∧
    baseAddr (pre ++ right :: post) prog lib = right.bias ∧
    tlsIndex (pre ++ right :: post) prog lib = some right.tls := by
  have hs : searchName prog lib = lib := by simp [searchName, hprog]
  have hm : Mentions lib right := by rw [Mentions, ← hright]; exact basename_infix _
  obtain ⟨r', hr, -⟩ := base_skip lib pre (right :: post) (0, some 0) hpre
  refine ⟨?_, ?_, ?_⟩
  · rw [addr_of_offset _ _ _ _ _ hoff, hs, iter_bias _ _ _ _ _ hpre hv hm ht, Nat.mod_eq_of_lt h2]
  · rw [baseAddr, hs, hr, base_hit _ _ _ _ hv hm]
  · rw [tlsIndex, hs, hr, base_hit _ _ _ _ hv hm]

/-- With the objects in the other order the library is found. -/
example : (getLoadedSymbolAddr ([demoMain] ++ demoFoo :: [demoBar]) demoProg demoLib [102] 0x1230).1 = 0x7e1230 :=
  (C68_named_library_partial demoProg demoLib [102] 0x1230 [demoMain] [demoBar] demoFoo (by decide +kernel) (by decide)
    (by intro p hp; left; rw [List.mem_singleton.mp hp]; exact demo_not_main)
    (by decide +kernel) (by decide +kernel) (demoObj_tables _ _ _ _) (by decide)).1

/-- **C68, partial** Without an offset the address is that of a symbol of that name in the same
library, or there is none. -/
theorem C68_by_name_partial (prog lib sym : Str) (pre post : List Obj) (right : Obj)
    (hprog : lib ≠ prog) (hpre : ∀ p ∈ pre, ¬ Mentions lib p ∨ p.name = vdso)
    (hright : getBasename right.name = lib) (hv : right.name ≠ vdso)
    (t : Nat → Sym) (nchains : Nat)
    (hd : right.dyns = [[.strtab, .symtab t, .syment 24, .hash nchains]])
    (hb : ∀ i, right.bias + (t i).value < 2 ^ 64) :
    (getLoadedSymbolAddr (pre ++ right :: post) prog lib sym 0).1 = 0 ∨
    ∃ i, i < nchains ∧ (t i).name = sym ∧
      (getLoadedSymbolAddr (pre ++ right :: post) prog lib sym 0) = (right.bias + (t i).value, (t i).size) := by
  have hs : searchName prog lib = lib := by simp [searchName, hprog]
  have hm : Mentions lib right := by rw [Mentions, ← hright]; exact basename_infix _
  have hsc : scanDyns right.dyns ⟨none, false, 0⟩ = some ⟨some t, true, nchains⟩ := by rw [hd]; rfl
  unfold getLoadedSymbolAddr
  rw [hs, iter_skip _ _ _ _ hpre, iter_hit lib sym right post hv hm hsc]
  simp only
  cases hg : getSymbolByName t sym nchains 0 with
  | none => left; simp
  | some s =>
    obtain ⟨j, -, h2, h3, h4⟩ := getSymbolByName_some hg
    simp only [ne_eq, not_true_eq_false, false_and, if_false]
    by_cases hz : s.value = 0
    · left; simp [hz]
    · right
      refine ⟨j, by omega, by rw [h3]; exact h4, ?_⟩
      have := hb j
      rw [h3] at this
      rw [if_neg hz, h3, Nat.mod_eq_of_lt this]

/-- Looked up by name: here the second alternative. -/
example : getLoadedSymbolAddr ([demoMain] ++ demoFoo :: [demoBar]) demoProg demoLib "foo".toUTF8.toList 0 =
    (0x7e1230, 16) := by
  decide +kernel

example : (getLoadedSymbolAddr ([demoMain] ++ demoFoo :: [demoBar]) demoProg demoLib "foo".toUTF8.toList 0).1 = 0 ∨
    ∃ i, i < 2 ∧ (demoTab "foo".toUTF8.toList i).name = "foo".toUTF8.toList ∧
      getLoadedSymbolAddr ([demoMain] ++ demoFoo :: [demoBar]) demoProg demoLib "foo".toUTF8.toList 0 =
        (demoFoo.bias + (demoTab "foo".toUTF8.toList i).value, (demoTab "foo".toUTF8.toList i).size) :=
  C68_by_name_partial demoProg demoLib _ [demoMain] [demoBar] demoFoo (by decide +kernel)
    (by intro p hp; left; rw [List.mem_singleton.mp hp]; exact demo_not_main)
    (by decide +kernel) (by decide +kernel) _ 2 rfl
    (by intro i; unfold demoTab; split <;> decide)

/-- The answers of the process to a request, with addresses looked up in its loaded objects:
lib/ulp.c:649, 700, 701, 812. -/
def worldOf (objs : List Obj) (prog : Str) (w : Runtime.World) : Runtime.World :=
  { w with oldSym := fun l f o => (getLoadedSymbolAddr objs prog l f o).1, libBase := baseAddr objs prog,
           tlsIdx := fun l => (tlsIndex objs prog l).getD (2 ^ 64 - 1) }

theorem applyUnits_patches {w lib id} (us : List Runtime.UnitM) (s : Runtime.State) :
    (Runtime.applyUnits w lib id us s).1.patches = s.patches := by
  have hp : ∀ (s : Runtime.State) a b c, (Runtime.patchAddr s a b c).1.patches = s.patches := by
    intro s a b c
    unfold Runtime.patchAddr
    split <;> rfl
  have hd : ∀ (s : Runtime.State) a d, (Runtime.addDetour s a d).patches = s.patches := by
    intro s a d
    unfold Runtime.addDetour
    simp only
    split <;> rfl
  induction us generalizing s with
  | nil => rfl
  | cons u us ih =>
    simp only [Runtime.applyUnits]
    split
    · rfl
    split
    · rfl
    split
    · simp only [hp, hd]
    · rw [ih]; simp only [hp, hd]

theorem applyRefs_patches {w tb ti so} (refs : List Runtime.RefM) (s : Runtime.State) :
    (Runtime.applyRefs w tb ti so refs s).1.patches = s.patches := by
  induction refs generalizing s with
  | nil => rfl
  | cons r rs ih =>
    simp only [Runtime.applyRefs]
    by_cases hc : r.patchOff = 0 ∧ (if r.patchOff = 0 then w.newSym r.refName else (so + r.patchOff) % 2 ^ 64) = 0
    · rw [if_pos hc]
    · rw [if_neg hc, ih]; rfl

theorem applyAllUnits_patches {w m} (s : Runtime.State) :
    (Runtime.applyAllUnits w m s).1.patches = s.patches := by
  unfold Runtime.applyAllUnits
  have := applyUnits_patches (w := w) (lib := m.lib) (id := m.id) m.units { s with univ := s.univ + 1 }
  generalize Runtime.applyUnits w m.lib m.id m.units { s with univ := s.univ + 1 } = p at this
  obtain ⟨s1, e⟩ := p
  simp only at this ⊢
  split
  · exact this
  split
  · exact this
  split
  · exact this
  split
  · exact this
  · rw [applyRefs_patches, this]

theorem resolveUnits_addrs {w lib} (f : Runtime.UnitM → Nat) (us : List Runtime.UnitM) (res)
    (h : Runtime.resolveUnits w lib us = some res)
    (hf : ∀ u ∈ us, w.oldSym (getBasename lib) u.oldName u.oldAddr = f u) :
    res.map Prod.fst = us.map f := by
  induction us generalizing res with
  | nil => simp only [Runtime.resolveUnits, Option.some.injEq] at h; subst h; rfl
  | cons u us ih =>
    simp only [Runtime.resolveUnits] at h
    split at h
    · simp at h
    split at h
    · simp at h
    cases hr : Runtime.resolveUnits w lib us with
    | none => simp [hr] at h
    | some r =>
      simp only [hr, Option.map_some, Option.some.injEq] at h
      subst h
      simp [hf u (by simp), ih r hr (fun v hv => hf v (by simp [hv]))]

theorem gate_fields {w : Runtime.World} {s s1 : Runtime.State} (h : Runtime.gate w s = (s1, none)) :
    s1.patches = s.patches := by
  unfold Runtime.gate at h
  simp only at h
  split at h
  · simp at h
  split at h
  · simp at h
  split at h
  · simp at h
  · simp only [Prod.mk.injEq, and_true] at h; rw [← h]

theorem gate_refused {w : Runtime.World} {s s1 : Runtime.State} {e : Err} (h : Runtime.gate w s = (s1, some e)) : e ≠ 0 := by
  unfold Runtime.gate at h
  simp only at h
  split at h
  · rename_i hne
    simp only [Prod.mk.injEq, Option.some.injEq] at h
    rw [← h.2]; exact hne
  split at h
  · rename_i h1 h2
    simp only [Prod.mk.injEq, Option.some.injEq] at h
    rw [← h.2]
    unfold InsnQueue.ensureEmptiness at h2 ⊢
    split
    · show EINSNQ ≠ 0; decide
    · rename_i h3; rw [if_neg h3] at h2; exact absurd rfl h2
  split at h
  · simp only [Prod.mk.injEq, Option.some.injEq] at h
    rw [← h.2]; decide
  · simp at h

/-- A served apply request that succeeds records the patch, with the addresses of its functions. -/
theorem apply_records {w m} {s s' : Runtime.State} (ht : m.type = 1)
    (h : Runtime.applyPatch w (.ok m) s = (s', 0)) (f : Runtime.UnitM → Nat)
    (hf : ∀ u ∈ m.units, w.oldSym (getBasename m.lib) u.oldName u.oldAddr = f u) :
    ∃ p, s'.patches = p :: s.patches ∧ p.id = m.id ∧ p.units.map Prod.fst = m.units.map f := by
  unfold Runtime.applyPatch at h
  split at h
  · rename_i s1 e hg
    simp only [Prod.mk.injEq] at h
    exact absurd h.2 (gate_refused hg)
  · rename_i s1 hg
    simp only at h
    unfold Runtime.loadPatch at h
    simp only [ht] at h
    simp only [show ((1 : Nat) = 2) = False by simp, if_false] at h
    split at h
    · rename_i hne
      simp only [Prod.mk.injEq] at h; exact absurd h.2 hne
    split at h
    · simp only [Prod.mk.injEq] at h; exact absurd h.2 (by decide)
    simp only [if_true] at h
    split at h
    · simp only [Prod.mk.injEq] at h; exact absurd h.2 (by decide)
    rename_i s2 hu
    split at h
    · rename_i hne
      simp only [Prod.mk.injEq] at h; exact absurd h.2 hne
    · simp only [Prod.mk.injEq] at h
      obtain ⟨rfl, -⟩ := h
      have := applyAllUnits_patches (w := w) (m := m) s2
      unfold Runtime.stateUpdate at hu
      cases hr : Runtime.resolveUnits w m.lib m.units with
      | none => simp [hr] at hu
      | some res =>
        simp only [hr, Option.map_some, Option.some.injEq] at hu
        subst hu
        refine ⟨⟨m.id, (getBasename m.lib).take Runtime.pathLen, m.soName.take Runtime.pathLen, m.deps.reverse, res⟩, ?_, rfl,
          resolveUnits_addrs f _ _ hr hf⟩
        rw [this, gate_fields hg]

/-- **C68, partial** At the level of requests: a successful apply request records the patch with
exactly the addresses of its functions in the named library. -/
theorem C68_applied_functions_partial (prog : Str) (w : Runtime.World) (m : Runtime.Meta) (s s' : Runtime.State)
    (pre post : List Obj) (right : Obj) (ht : m.type = 1) (hprog : getBasename m.lib ≠ prog)
    (hoff : ∀ u ∈ m.units, u.oldAddr ≠ 0 ∧ right.bias + u.oldAddr < 2 ^ 64)
    (hpre : ∀ p ∈ pre, ¬ Mentions (getBasename m.lib) p ∨ p.name = vdso)
    (hright : getBasename right.name = getBasename m.lib) (hv : right.name ≠ vdso) (htab : HasTables right)
    (h : Runtime.applyPatch (worldOf (pre ++ right :: post) prog w) (.ok m) s = (s', 0)) :
    ∃ p, s'.patches = p :: s.patches ∧ p.id = m.id ∧
      p.units.map Prod.fst = m.units.map fun u => right.bias + u.oldAddr :=
  apply_records ht h _ fun u hu =>
    (C68_named_library_partial prog _ _ _ pre post right hprog (hoff u hu).1 hpre hright hv htab (hoff u hu).2).1

def demoWorld : Runtime.World where
  busy := false
  buildIdOk := true
  dlopenOk := true
  oldSym := fun _ _ _ => 0
  newSym := fun _ => 0x700000
  libBase := fun _ => 0
  tlsIdx := fun _ => 0
  soBase := some 0x5000

def demoMeta : Runtime.Meta :=
  { type := 1, id := [1], soName := [2], lib := "/lib64/libfoo.so.1".toUTF8.toList,
    units := [⟨[102], [103], 0x1230⟩, ⟨[104], [105], 0x1250⟩], deps := [], refs := [] }

/-- Two functions of libfoo are patched in a process whose memory is full of NOPs. -/
example : ∃ s' p, Runtime.applyPatch (worldOf ([demoMain] ++ demoFoo :: [demoBar]) demoProg demoWorld) (.ok demoMeta)
    (Runtime.State.init fun _ => 0x90) = (s', 0) ∧ s'.patches = [p] ∧ p.units.map Prod.fst = [0x7e1230, 0x7e1250] := by
  have h : (Runtime.applyPatch (worldOf ([demoMain] ++ demoFoo :: [demoBar]) demoProg demoWorld) (.ok demoMeta)
    (Runtime.State.init fun _ => 0x90)).2 = 0 := by decide +kernel
  generalize hr : Runtime.applyPatch (worldOf ([demoMain] ++ demoFoo :: [demoBar]) demoProg demoWorld) (.ok demoMeta)
    (Runtime.State.init fun _ => 0x90) = r at h
  obtain ⟨s', e⟩ := r
  simp only at h
  subst h
  obtain ⟨p, h1, -, h2⟩ := C68_applied_functions_partial demoProg demoWorld demoMeta _ s' [demoMain] [demoBar] demoFoo
    rfl (by decide +kernel) (by intro u hu; simp only [demoMeta, List.mem_cons, List.not_mem_nil, or_false] at hu
                                rcases hu with rfl | rfl <;> decide)
    (by intro p hp; left; rw [List.mem_singleton.mp hp, show getBasename demoMeta.lib = demoLib by decide +kernel]; exact demo_not_main)
    (by decide +kernel) (by decide +kernel) (demoObj_tables _ _ _ _) hr
  exact ⟨s', p, rfl, h1, h2⟩

/-! ### C69 -/

theorem base_none (lib : Str) (objs : List Obj) (hne : objs ≠ []) (h : ∀ p ∈ objs, ¬ Mentions lib p ∨ p.name = vdso) :
    iterBase lib objs (0, some 0) = (0xff, none) := by
  obtain ⟨r', e, a, -⟩ := base_skip lib objs [] (0, some 0) h
  rw [List.append_nil] at e
  rw [e, a hne]; rfl

theorem addr_none (lib sym : Str) (objs : List Obj) (h : ∀ p ∈ objs, ¬ Mentions lib p ∨ p.name = vdso) :
    iterSymbol lib sym objs ⟨0, 0, 0, false⟩ = ⟨0, 0, 0, false⟩ := by
  have := iter_skip lib sym objs [] h
  rw [List.append_nil] at this
  rw [this]; rfl

/-- **C69 (negation)** If the library is not loaded, a function given by its offset is nevertheless
found: at the offset itself, as if it were an address. -/
theorem C69_bare_offset (objs : List Obj) (prog lib sym : Str) (off : Nat) (hprog : lib ≠ prog)
    (hoff : off ≠ 0) (hlt : off < 2 ^ 64) (h : ∀ p ∈ objs, ¬ Mentions lib p ∨ p.name = vdso) :
    (getLoadedSymbolAddr objs prog lib sym off).1 = off := by
  have hs : searchName prog lib = lib := by simp [searchName, hprog]
  rw [addr_of_offset _ _ _ _ _ hoff, hs, addr_none _ _ _ h]
  simp [Nat.mod_eq_of_lt hlt]

example : (getLoadedSymbolAddr [demoMain] demoProg demoLib [102] 0x1230).1 = 0x1230 :=
  C69_bare_offset [demoMain] demoProg demoLib [102] 0x1230 (by decide +kernel) (by decide) (by decide)
    (by intro p hp; left; rw [List.mem_singleton.mp hp]; exact demo_not_main)

theorem applyAll_not_loaded {w : Runtime.World} {m : Runtime.Meta} (s : Runtime.State)
    (h : w.libBase (getBasename m.lib) = 0xff) : (Runtime.applyAllUnits w m s).2 ≠ 0 := by
  unfold Runtime.applyAllUnits
  generalize Runtime.applyUnits w m.lib m.id m.units { s with univ := s.univ + 1 } = p
  obtain ⟨s1, e⟩ := p
  simp only
  by_cases he : e ≠ 0
  · rw [if_pos he]; exact he
  · rw [if_neg he, if_pos h]; show ENOADDRESS ≠ 0; decide

/-- **C69, partial** A livepatch for a library that is not loaded is never reported as applied.
Missing: that the request leaves the process alone, which is false (`C69_recorded`). -/
theorem C69_not_loaded_fails_partial (objs : List Obj) (prog : Str) (w : Runtime.World) (m : Runtime.Meta)
    (s : Runtime.State) (ht : m.type = 1) (hprog : getBasename m.lib ≠ prog) (hne : objs ≠ [])
    (h : ∀ p ∈ objs, ¬ Mentions (getBasename m.lib) p ∨ p.name = vdso) :
    (Runtime.applyPatch (worldOf objs prog w) (.ok m) s).2 ≠ 0 := by
  have hs : searchName prog (getBasename m.lib) = getBasename m.lib := by simp [searchName, hprog]
  have hb : (worldOf objs prog w).libBase (getBasename m.lib) = 0xff := by
    show baseAddr _ _ _ = _
    rw [baseAddr, hs, base_none _ _ hne h]
  unfold Runtime.applyPatch
  split
  · rename_i hg; exact gate_refused hg
  simp only
  unfold Runtime.loadPatch
  simp only [ht, show ((1 : Nat) = 2) = False by simp, if_false, if_true]
  split
  · rename_i hx; exact hx
  split
  · show EDLOPEN ≠ 0; decide
  split
  · show ESTATE ≠ 0; decide
  rename_i s2 hu
  have := applyAll_not_loaded (m := m) s2 hb
  split
  · exact this
  · rename_i hx; exact absurd this hx

example : (Runtime.applyPatch (worldOf [demoMain] demoProg demoWorld) (.ok demoMeta)
    (Runtime.State.init fun _ => 0x90)).2 ≠ 0 :=
  C69_not_loaded_fails_partial [demoMain] demoProg demoWorld demoMeta _ rfl (by decide +kernel) (by simp)
    (by intro p hp; left; rw [List.mem_singleton.mp hp, show getBasename demoMeta.lib = demoLib by decide +kernel]
        exact demo_not_main)

theorem resolveUnits_some {w lib} (us : List Runtime.UnitM)
    (h1 : ∀ u ∈ us, w.oldSym (getBasename lib) u.oldName u.oldAddr ≠ 0) (h2 : ∀ u ∈ us, w.newSym u.newName ≠ 0) :
    ∃ res, Runtime.resolveUnits w lib us = some res := by
  induction us with
  | nil => exact ⟨[], rfl⟩
  | cons u us ih =>
    obtain ⟨r, hr⟩ := ih (fun v hv => h1 v (by simp [hv])) (fun v hv => h2 v (by simp [hv]))
    simp only [Runtime.resolveUnits]
    rw [if_neg (h1 u (by simp)), if_neg (h2 u (by simp)), hr]
    exact ⟨_, rfl⟩

/-- **C69 (negation)** Such a request, in an idle process, records the patch as applied, at addresses
that are the bare offsets (and reads 14 bytes there, lib/ulp.c:833), and puts libpulp in an error
state. -/
theorem C69_recorded (objs : List Obj) (prog : Str) (w : Runtime.World) (m : Runtime.Meta)
    (s : Runtime.State) (ht : m.type = 1) (hprog : getBasename m.lib ≠ prog) (hne : objs ≠ [])
    (h : ∀ p ∈ objs, ¬ Mentions (getBasename m.lib) p ∨ p.name = vdso)
    (he : s.err = ENONE) (hq : s.q.num = 0 ∧ s.q.size = 0) (hbusy : w.busy = false) (hid : w.buildIdOk = true)
    (hdl : w.dlopenOk = true) (hdeps : m.deps = []) (hnew : ∀ p ∈ s.patches, p.id ≠ m.id)
    (hoff : ∀ u ∈ m.units, u.oldAddr ≠ 0 ∧ u.oldAddr < 2 ^ 64) (hsym : ∀ u ∈ m.units, w.newSym u.newName ≠ 0) :
    ∃ p, (Runtime.applyPatch (worldOf objs prog w) (.ok m) s).1.patches = p :: s.patches ∧ p.id = m.id ∧
      p.units.map Prod.fst = m.units.map Runtime.UnitM.oldAddr ∧
      (Runtime.applyPatch (worldOf objs prog w) (.ok m) s).1.err = EUNKNOWN := by
  have hs : searchName prog (getBasename m.lib) = getBasename m.lib := by simp [searchName, hprog]
  have hb : (worldOf objs prog w).libBase (getBasename m.lib) = 0xff := by
    show baseAddr _ _ _ = _
    rw [baseAddr, hs, base_none _ _ hne h]
  have haddr : ∀ u ∈ m.units, (worldOf objs prog w).oldSym (getBasename m.lib) u.oldName u.oldAddr = u.oldAddr :=
    fun u hu => C69_bare_offset objs prog _ _ _ hprog (hoff u hu).1 (hoff u hu).2 h
  have hg : Runtime.gate (worldOf objs prog w) s = (s, none) := by
    unfold Runtime.gate InsnQueue.ensureEmptiness
    simp only [he, hq.1, hq.2, worldOf, hbusy, ne_eq, not_true_eq_false, if_false, Nat.lt_irrefl, or_self, gt_iff_lt,
      Bool.false_eq_true]
    rw [← he]
  have hsan : Runtime.sanity (worldOf objs prog w) m s = 0 := by
    unfold Runtime.sanity Runtime.depsOk
    have : Runtime.getApplied s m.id = none := by
      simp [Runtime.getApplied]
      exact hnew
    simp [worldOf, hid, hdeps, this]
  obtain ⟨res, hr⟩ := resolveUnits_some (w := worldOf objs prog w) (lib := m.lib) m.units
    (fun u hu => by rw [haddr u hu]; exact (hoff u hu).1) hsym
  unfold Runtime.applyPatch
  rw [hg]
  simp only
  unfold Runtime.loadPatch Runtime.stateUpdate
  have hd' : (worldOf objs prog w).dlopenOk = true := hdl
  simp only [ht, show ((1 : Nat) = 2) = False by simp, if_false, if_true, hsan, hr, hd', Option.map_some, ne_eq,
    not_true_eq_false, Bool.not_true, Bool.false_eq_true, and_false]
  generalize hs2 : ({ s with patches := _ } : Runtime.State) = s2
  have hp := applyAllUnits_patches (w := worldOf objs prog w) (m := m) s2
  have hx := applyAll_not_loaded (m := m) s2 hb
  rw [if_pos hx]
  refine ⟨⟨m.id, (getBasename m.lib).take Runtime.pathLen, m.soName.take Runtime.pathLen, m.deps.reverse, res⟩, ?_, rfl,
    resolveUnits_addrs _ _ _ hr haddr, rfl⟩
  rw [← hs2] at hp ⊢
  exact hp

example : ∃ p, (Runtime.applyPatch (worldOf [demoMain] demoProg demoWorld) (.ok demoMeta)
    (Runtime.State.init fun _ => 0x90)).1.patches = [p] ∧ p.units.map Prod.fst = [0x1230, 0x1250] := by
  obtain ⟨p, h1, -, h2, -⟩ := C69_recorded [demoMain] demoProg demoWorld demoMeta (Runtime.State.init fun _ => 0x90)
    rfl (by decide +kernel) (by simp)
    (by intro p hp; left; rw [List.mem_singleton.mp hp, show getBasename demoMeta.lib = demoLib by decide +kernel]
        exact demo_not_main)
    rfl ⟨rfl, rfl⟩ rfl rfl rfl rfl (by intro p hp; simp [Runtime.State.init] at hp)
    (by intro u hu; simp only [demoMeta, List.mem_cons, List.not_mem_nil, or_false] at hu
        rcases hu with rfl | rfl <;> decide)
    (by intro u _; show 0x700000 ≠ 0; decide)
  exact ⟨p, h1, h2⟩

/-! ### C70 -/

/-- **C70 (negation)** If the dynamic linker has no `DT_HASH` section (`DT_GNU_HASH` being enough for
the C library), a program with libpulp preloaded exits at start, whatever the version. -/
theorem C70_no_hash_crash (prog ldLinux : Str) (major minor : Nat) (pre post : List Obj) (ld : Obj) (t : Nat → Sym)
    (hprog : ldLinux ≠ prog) (hpre : ∀ p ∈ pre, ¬ Mentions ldLinux p ∨ p.name = vdso)
    (hm : Mentions ldLinux ld) (hv : ld.name ≠ vdso)
    (hd : ld.dyns = [[.strtab, .symtab t, .syment 24]]) :
    ldGlobalLocks (pre ++ ld :: post) prog ldLinux major minor = .crash := by
  have hs : searchName prog ldLinux = ldLinux := by simp [searchName, hprog]
  have hsc : scanDyns ld.dyns ⟨none, false, 0⟩ = some ⟨some t, true, 0⟩ := by rw [hd]; rfl
  unfold ldGlobalLocks getLoadedSymbolAddr
  rw [hs, iter_skip _ _ _ _ hpre, iter_hit ldLinux _ ld post hv hm hsc]
  simp [getSymbolByName]

def demoLd (h : List Dyn) : Obj :=
  ⟨"/lib64/ld-linux-x86-64.so.2".toUTF8.toList, 0x7d0000, 0, [[.strtab, .symtab (demoTab rtldGlobal), .syment 24] ++ h]⟩
def demoLdName : Str := "ld-linux-x86-64.so.2".toUTF8.toList

theorem demo_main_no_ld : ¬ Mentions demoLdName demoMain := by
  rw [Mentions, ← strstr_iff]; decide +kernel

example : ldGlobalLocks ([demoMain] ++ demoLd [] :: []) demoProg demoLdName 2 39 = .crash :=
  C70_no_hash_crash demoProg demoLdName 2 39 [demoMain] [] (demoLd []) (demoTab rtldGlobal) (by decide +kernel)
    (by intro p hp; left; rw [List.mem_singleton.mp hp]; exact demo_main_no_ld)
    ((strstr_iff _ _).mp (by decide +kernel)) (by decide +kernel) rfl

/-- **C70 (negation)** With a C library older than 2.31 the program exits at start too. -/
theorem C70_old_libc_crash (objs : List Obj) (prog ldLinux : Str) (minor : Nat) (h : minor < 31) :
    ldGlobalLocks objs prog ldLinux 2 minor = .crash := by
  unfold ldGlobalLocks
  simp only
  split
  · rfl
  · rw [if_pos trivial, if_neg (by omega), if_neg (by omega), if_neg (by omega)]

example : ldGlobalLocks ([demoMain] ++ demoLd [.hash 2] :: []) demoProg demoLdName 2 28 = .crash :=
  C70_old_libc_crash _ _ _ 28 (by decide)

theorem getSymbolByName_found (t : Nat → Sym) (name : Str) (n i j : Nat) (h1 : i ≤ j) (h2 : j < i + n)
    (h : (t j).name = name) (hu : ∀ k, (t k).name = name → t k = t j) : getSymbolByName t name n i = some (t j) := by
  induction n generalizing i with
  | zero => omega
  | succ n ih =>
    rw [getSymbolByName]
    split
    · rename_i hi; rw [hu i hi]
    · rename_i hi
      have : i ≠ j := by intro e; subst e; exact hi h
      exact ih (i + 1) (by omega) (by omega)

/-- **C70, partial** With C library 2.31 or newer and a dynamic linker that has a `DT_HASH` section
and the symbol `_rtld_global`, the program goes on, with the locks looked for at that symbol
in the layout for that version. -/
theorem C70_starts_partial (prog ldLinux : Str) (minor : Nat) (pre post : List Obj) (ld : Obj) (t : Nat → Sym)
    (nchains i : Nat) (hprog : ldLinux ≠ prog) (hpre : ∀ p ∈ pre, ¬ Mentions ldLinux p ∨ p.name = vdso)
    (hm : Mentions ldLinux ld) (hv : ld.name ≠ vdso) (hminor : 31 ≤ minor)
    (hd : ld.dyns = [[.strtab, .symtab t, .syment 24, .hash nchains]])
    (hi : i < nchains) (hn : (t i).name = rtldGlobal) (huniq : ∀ k, (t k).name = rtldGlobal → t k = t i)
    (hz : (t i).value ≠ 0) (hb : ld.bias + (t i).value < 2 ^ 64) :
    ∃ l, ldGlobalLocks (pre ++ ld :: post) prog ldLinux 2 minor = .at l (ld.bias + (t i).value) ∧
      (l = .v2_31 ↔ minor < 35) ∧ (l = .v2_42 ↔ 42 ≤ minor) := by
  have hs : searchName prog ldLinux = ldLinux := by simp [searchName, hprog]
  have hsc : scanDyns ld.dyns ⟨none, false, 0⟩ = some ⟨some t, true, nchains⟩ := by rw [hd]; rfl
  have hg := getSymbolByName_found t rtldGlobal nchains 0 i (by omega) (by omega) hn huniq
  have hl : (getLoadedSymbolAddr (pre ++ ld :: post) prog ldLinux rtldGlobal 0).1 = ld.bias + (t i).value := by
    unfold getLoadedSymbolAddr
    rw [hs, iter_skip _ _ _ _ hpre, iter_hit ldLinux _ ld post hv hm hsc, hg]
    simp only [ne_eq, not_true_eq_false, false_and, if_false]
    rw [if_neg hz, Nat.mod_eq_of_lt hb]
  unfold ldGlobalLocks
  simp only [hl]
  rw [if_neg (by omega), if_pos trivial]
  split
  · exact ⟨_, rfl, by simp; omega, by simp; omega⟩
  split
  · exact ⟨_, rfl, by simp; omega, by simp; omega⟩
  rw [if_pos (by omega)]
  exact ⟨_, rfl, by simp; omega, by simp; omega⟩

example : ∃ l, ldGlobalLocks ([demoMain] ++ demoLd [.hash 2] :: []) demoProg demoLdName 2 39 = .at l 0x7d1230 ∧
    (l = .v2_31 ↔ 39 < 35) ∧ (l = .v2_42 ↔ 42 ≤ 39) :=
  C70_starts_partial demoProg demoLdName 39 [demoMain] [] (demoLd [.hash 2]) (demoTab rtldGlobal) 2 1
    (by decide +kernel) (by intro p hp; left; rw [List.mem_singleton.mp hp]; exact demo_main_no_ld)
    ((strstr_iff _ _).mp (by decide +kernel)) (by decide +kernel) (by decide) rfl (by decide) (by decide +kernel)
    (by intro k hk
        unfold demoTab at hk ⊢
        by_cases h : k = 1
        · simp [h]
        · rw [if_neg h] at hk; exact absurd hk (by decide +kernel))
    (by decide) (by decide)

end Verif.SymLoad
