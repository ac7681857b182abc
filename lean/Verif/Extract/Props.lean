import Verif.Extract.Spec
import Verif.Text.Props

/-!
C75 to C79: what `ulp extract` and the packer know about a library.
-/

namespace Verif.Extract

open Spec

/-! ### JSON -/

/-- The offset fits a signed 32-bit integer. -/
def FitsInt (v : BitVec 64) : Prop := v.toNat < 2 ^ 31 ∨ 2 ^ 64 - 2 ^ 31 ≤ v.toNat

theorem sign_round (v : BitVec 64) : (v.setWidth 32).signExtend 64 = v ↔ FitsInt v := by
  unfold FitsInt
  rw [← BitVec.toNat_inj, BitVec.toNat_signExtend]
  simp only [BitVec.toNat_setWidth, BitVec.msb_setWidth]
  have hv := v.isLt
  have hb : v.getLsbD 31 = decide (2 ^ 31 ≤ v.toNat % 2 ^ 32) := by
    have hm : (v.setWidth 32).msb = v.getLsbD 31 := by simp [BitVec.msb_setWidth]
    rw [← hm, BitVec.msb_eq_decide]
    simp
  simp only [hb]
  by_cases hc : 2 ^ 31 ≤ v.toNat % 2 ^ 32
  · simp [hc]; omega
  · simp [hc]; omega

theorem round_sym (s : Sym) : parseSym (jsonSym s) = s ↔ FitsInt s.offset := by
  obtain ⟨n, o, z, i, t⟩ := s
  unfold parseSym jsonSym
  simp only [Sym.mk.injEq, true_and]
  rw [sign_round]
  constructor
  · exact fun h => h.1
  · intro h
    refine ⟨h, ?_, ?_, ?_⟩
    · ext k hk; simp [BitVec.getLsbD_signExtend, hk]; omega
    · obtain ⟨i⟩ := i; simp
    · obtain ⟨t⟩ := t; simp

theorem parse_write (i : SoInfo) (hid : i.buildId.length = 20) :
    parseJson (writeJson i) = .ok ⟨i.name, i.buildId, i.symbols.map (parseSym ∘ jsonSym)⟩ := by
  unfold parseJson writeJson
  simp only [Text.C39_buildid_round_trip _ hid, List.map_map]

theorem map_eq_self {α} (f : α → α) (l : List α) : l.map f = l ↔ ∀ x ∈ l, f x = x := by
  induction l with
  | nil => simp
  | cons a l ih => simp [ih]

/-- **C75**, exactly when it is true: what is read back from the JSON form is what was written, if and only
if all offsets fit 32 bits with sign. -/
theorem C75_json_roundtrip_partial (i : SoInfo) (hid : i.buildId.length = 20) :
    parseJson (writeJson i) = .ok i ↔ ∀ s ∈ i.symbols, s.offset.toNat < 2 ^ 31 ∨ 2 ^ 64 - 2 ^ 31 ≤ s.offset.toNat := by
  rw [parse_write i hid]
  obtain ⟨n, b, l⟩ := i
  simp only [Res.ok.injEq, SoInfo.mk.injEq, true_and]
  rw [map_eq_self]
  exact forall₂_congr fun s _ => round_sym s

/-- **C75** is false for larger libraries: a symbol at 2 GiB or above is read back at another offset, so the
livepatch patches another place. -/
theorem C75_large_offset (i : SoInfo) (hid : i.buildId.length = 20) (s : Sym) (n : Str)
    (hs : getSymbol i n = some s) (h1 : 2 ^ 31 ≤ s.offset.toNat) (h2 : s.offset.toNat < 2 ^ 32) :
    ∃ i', parseJson (writeJson i) = .ok i' ∧ i'.buildId = i.buildId ∧
      ∃ s', getSymbol i' n = some s' ∧ s'.offset.toNat = s.offset.toNat + (2 ^ 64 - 2 ^ 32) := by
  refine ⟨_, parse_write i hid, rfl, parseSym (jsonSym s), ?_, ?_⟩
  · unfold getSymbol at hs ⊢
    simp only [List.find?_map]
    have : ((fun s => decide (s.name = n)) ∘ parseSym ∘ jsonSym) = fun s : Sym => decide (s.name = n) := rfl
    rw [this, hs]
    rfl
  · show ((s.offset.setWidth 32).signExtend 64).toNat = _
    rw [BitVec.toNat_signExtend]
    have hm : (s.offset.setWidth 32).msb = true := by
      rw [BitVec.msb_eq_decide]
      simp; omega
    rw [hm]
    simp; omega

def demoSym (n : Str) (o : Nat) : Sym := ⟨n, BitVec.ofNat 64 o, 16, 18, 0⟩
def demoInfo (o : Nat) : SoInfo := ⟨[108], List.replicate 20 7, [demoSym [102] 4096, demoSym [103] o]⟩

/-- A library with two functions. -/
example : parseJson (writeJson (demoInfo 8192)) = .ok (demoInfo 8192) :=
  (C75_json_roundtrip_partial _ (by simp [demoInfo])).mpr (by
    intro s hs; simp [demoInfo] at hs; rcases hs with rfl | rfl <;> decide)

/-- A function at 2 GiB. -/
example : ∃ i', parseJson (writeJson (demoInfo (2 ^ 31))) = .ok i' ∧ i'.buildId = List.replicate 20 7 ∧
    ∃ s', getSymbol i' [103] = some s' ∧ s'.offset.toNat = 2 ^ 31 + (2 ^ 64 - 2 ^ 32) :=
  C75_large_offset (demoInfo (2 ^ 31)) (by simp [demoInfo]) (demoSym [103] (2 ^ 31)) [103] (by decide) (by decide) (by decide)

/-! ### Debug information -/

theorem getSymbol_merge (a b : SoInfo) (n : Str) :
    getSymbol (merge a b).1 n = (getSymbol a n).or (getSymbol b n) := by
  unfold getSymbol merge
  rw [List.find?_append]

/-- **C76**, the part that is true: if the debug information belongs to the same build, everything extracted
describes that build; symbols of the library are described as the library has them, and symbols that only
the debug information has as it has them. -/
theorem C76_same_build_partial (lib dbg : SoInfo) (hid : lib.buildId.length = 20) (hb : dbg.buildId = lib.buildId)
    (hs : ∀ s ∈ lib.symbols ++ dbg.symbols, s.offset.toNat < 2 ^ 31) :
    ∃ j i, runExtract (.ok lib) (some (.ok dbg)) = .ok j ∧ parseJson j = .ok i ∧ i.buildId = dbg.buildId ∧
      ∀ n, (∀ s, getSymbol lib n = some s → getSymbol i n = some s) ∧
        (getSymbol lib n = none → getSymbol i n = getSymbol dbg n) := by
  refine ⟨_, (merge lib dbg).1, rfl, (C75_json_roundtrip_partial (merge lib dbg).1 hid).mpr fun s h => Or.inl (hs s h), hb.symm, ?_⟩
  intro n
  rw [getSymbol_merge]
  exact ⟨fun s h => by rw [h]; rfl, fun h => by rw [h]; rfl⟩

/-- **C76** is false of the code: debug information of another build is merged in, and its offsets are
extracted as offsets of the library, under the library's build id. -/
theorem C76_foreign_debuginfo (lib dbg : SoInfo) (hid : lib.buildId.length = 20) (hb : dbg.buildId ≠ lib.buildId)
    (hs : ∀ s ∈ lib.symbols ++ dbg.symbols, s.offset.toNat < 2 ^ 31) (n : Str) (h : getSymbol lib n = none) :
    ∃ j i, runExtract (.ok lib) (some (.ok dbg)) = .ok j ∧ parseJson j = .ok i ∧
      i.buildId = lib.buildId ∧ i.buildId ≠ dbg.buildId ∧ getSymbol i n = getSymbol dbg n := by
  refine ⟨_, (merge lib dbg).1, rfl, (C75_json_roundtrip_partial (merge lib dbg).1 hid).mpr fun s h => Or.inl (hs s h), rfl, hb.symm, ?_⟩
  rw [getSymbol_merge, h]
  rfl

/-- **C76** Debug information without a build id is not refused either: the tool uses a NULL pointer. -/
theorem C76_no_buildid_debuginfo (lib : SoInfo) (path : Str) (dbg : Elf) (hn : dbg.note = none) :
    ∃ r, parseSoElf path dbg 1 = some r ∧ runExtract (.ok lib) (some r) = .ub := by
  refine ⟨.err, ?_, rfl⟩
  simp [parseSoElf, getElfBuildid, hn]

def demoDbg (b : UInt8) : SoInfo := ⟨[100], List.replicate 20 b, [demoSym [102] 1, demoSym [104] 12288]⟩

/-- A static function that only the debug information has. -/
example : ∃ j i, runExtract (.ok (demoInfo 8192)) (some (.ok (demoDbg 7))) = .ok j ∧ parseJson j = .ok i ∧
    getSymbol i [102] = some (demoSym [102] 4096) ∧ getSymbol i [104] = some (demoSym [104] 12288) := by
  obtain ⟨j, i, h1, h2, -, h⟩ := C76_same_build_partial (demoInfo 8192) (demoDbg 7) (by simp [demoInfo]) rfl (by decide)
  exact ⟨j, i, h1, h2, (h [102]).1 _ (by decide), by rw [(h [104]).2 (by decide)]; decide⟩

/-- The same with debug information of another build. -/
example : ∃ j i, runExtract (.ok (demoInfo 8192)) (some (.ok (demoDbg 8))) = .ok j ∧ parseJson j = .ok i ∧
    i.buildId = List.replicate 20 7 ∧ getSymbol i [104] = some (demoSym [104] 12288) := by
  obtain ⟨j, i, h1, h2, h3, -, h⟩ := C76_foreign_debuginfo (demoInfo 8192) (demoDbg 8) (by simp [demoInfo])
    (by decide) (by decide) [104] (by decide)
  exact ⟨j, i, h1, h2, h3, by rw [h]; decide⟩

/-! ### Which symbol a name stands for -/

theorem fold_eq (l : List RawSym) (acc : List Sym) :
    l.foldl (fun acc r => if r.name = [] then acc else mkSym r :: acc) acc =
      ((l.filter (fun r => r.name ≠ [])).map mkSym).reverse ++ acc := by
  induction l generalizing acc with
  | nil => rfl
  | cons r l ih =>
    rw [List.foldl_cons, ih]
    by_cases h : r.name = [] <;> simp [h]

theorem listOfSymbols_eq (l : List RawSym) :
    listOfSymbols (some l) = ((l.filter (fun r => r.name ≠ [])).map mkSym).reverse := by
  show l.foldl _ [] = _
  rw [fold_eq, List.append_nil]

theorem find_last {l : List RawSym} {n : Str} (hn : n ≠ []) {r : RawSym} (h : LastNamed l n r) :
    (listOfSymbols (some l)).find? (fun s => s.name = n) = some (mkSym r) := by
  obtain ⟨pre, post, rfl, rfl, hp⟩ := h
  rw [listOfSymbols_eq]
  simp only [List.filter_append, List.filter_cons, hn, ne_eq, not_false_eq_true, decide_true, if_true,
    List.map_append, List.map_cons, List.reverse_append, List.reverse_cons, List.append_assoc]
  rw [List.find?_append, List.find?_eq_none.mpr, Option.none_or]
  · simp [mkSym]
  · intro s hs
    simp only [List.mem_reverse, List.mem_map, List.mem_filter] at hs
    obtain ⟨x, ⟨hx, -⟩, rfl⟩ := hs
    exact fun hc => hp x hx (of_decide_eq_true hc)

theorem find_none {l : List RawSym} {n : Str} (h : ∀ r ∈ l, r.name ≠ n) :
    (listOfSymbols (some l)).find? (fun s => s.name = n) = none := by
  rw [listOfSymbols_eq, List.find?_eq_none]
  intro s hs
  simp only [List.mem_reverse, List.mem_map, List.mem_filter] at hs
  obtain ⟨x, ⟨hx, -⟩, rfl⟩ := hs
  exact fun hc => h x hx (of_decide_eq_true hc)

theorem exists_last {l : List RawSym} {n : Str} (h : ∃ r ∈ l, r.name = n) : ∃ r, LastNamed l n r := by
  induction l with
  | nil => simp at h
  | cons a l ih =>
    by_cases hl : ∃ r ∈ l, r.name = n
    · obtain ⟨r, pre, post, rfl, h1, h2⟩ := ih hl
      exact ⟨r, a :: pre, post, rfl, h1, h2⟩
    · obtain ⟨r, hr, hrn⟩ := h
      rcases List.mem_cons.mp hr with rfl | hr
      · exact ⟨r, [], l, rfl, hrn, fun x hx hxn => hl ⟨x, hx, hxn⟩⟩
      · exact absurd ⟨r, hr, hrn⟩ hl

theorem listOfSymbols_getD (o : Option (List RawSym)) : listOfSymbols o = listOfSymbols (some (o.getD [])) := by
  cases o <;> rfl

theorem getSymbol_build (e : Elf) (nm : Str) (id : Bytes) (n : Str) :
    getSymbol ⟨nm, id, buildSymbolsList e⟩ n =
      ((listOfSymbols (some (e.dynsym.getD []))).find? (fun s => s.name = n)).or
        ((listOfSymbols (some (e.symtab.getD []))).find? (fun s => s.name = n)) := by
  unfold getSymbol buildSymbolsList
  rw [List.find?_append, ← listOfSymbols_getD, ← listOfSymbols_getD]

/-- **C77**, the part that is true: a name is found if and only if the file has a symbol of that name, and
if all its symbols of that name have the same value, that is the offset found. -/
theorem C77_lookup_partial (path : Str) (e : Elf) (fuel : Nat) (i : SoInfo) (h : parseSoElf path e fuel = some (.ok i))
    (n : Str) (hn : n ≠ []) :
    ((getSymbol i n).isSome ↔ ∃ r ∈ entries e, r.name = n) ∧
    (∀ s, getSymbol i n = some s → ∃ r ∈ entries e, r.name = n ∧ s.name = n ∧ s.offset = r.value) ∧
    (∀ v, (∀ r ∈ entries e, r.name = n → r.value = v) → ∀ s, getSymbol i n = some s → s.offset = v) := by
  have hi : ∃ id, i = ⟨getBasename path, id, buildSymbolsList e⟩ := by
    unfold parseSoElf at h
    split at h <;> simp at h
    exact ⟨_, h.symm⟩
  obtain ⟨id, rfl⟩ := hi
  rw [getSymbol_build]
  have hsome : ∀ s, ((listOfSymbols (some (e.dynsym.getD []))).find? (fun s => s.name = n)).or
        ((listOfSymbols (some (e.symtab.getD []))).find? (fun s => s.name = n)) = some s →
      ∃ r ∈ entries e, r.name = n ∧ s.name = n ∧ s.offset = r.value := by
    intro s hs
    by_cases hd : ∃ r ∈ e.dynsym.getD [], r.name = n
    · obtain ⟨r, hr⟩ := exists_last hd
      rw [find_last hn hr] at hs
      simp at hs
      obtain ⟨pre, post, he, hrn, -⟩ := hr
      exact ⟨r, by rw [entries, he]; simp, hrn, by rw [← hs]; exact hrn, by rw [← hs]; rfl⟩
    · rw [find_none (fun r hr hrn => hd ⟨r, hr, hrn⟩), Option.none_or] at hs
      by_cases ht : ∃ r ∈ e.symtab.getD [], r.name = n
      · obtain ⟨r, hr⟩ := exists_last ht
        rw [find_last hn hr] at hs
        simp at hs
        obtain ⟨pre, post, he, hrn, -⟩ := hr
        exact ⟨r, by rw [entries, he]; simp, hrn, by rw [← hs]; exact hrn, by rw [← hs]; rfl⟩
      · rw [find_none (fun r hr hrn => ht ⟨r, hr, hrn⟩)] at hs
        simp at hs
  refine ⟨⟨?_, ?_⟩, hsome, ?_⟩
  · intro hs
    obtain ⟨s, hs⟩ := Option.isSome_iff_exists.mp hs
    obtain ⟨r, hr, hrn, -⟩ := hsome s hs
    exact ⟨r, hr, hrn⟩
  · rintro ⟨r, hr, hrn⟩
    rcases List.mem_append.mp hr with hr | hr
    · obtain ⟨r', hl⟩ := exists_last ⟨r, hr, hrn⟩
      rw [find_last hn hl]
      rfl
    · obtain ⟨r', hl⟩ := exists_last ⟨r, hr, hrn⟩
      rw [find_last hn hl]
      cases (listOfSymbols (some (e.dynsym.getD []))).find? (fun s => s.name = n) <;> rfl
  · intro v hv s hs
    obtain ⟨r, hr, hrn, -, ho⟩ := hsome s hs
    rw [ho, hv r hr hrn]

/-- **C77** is false of the code for names that are used in more than one way: if the dynamic symbols have an
entry for a function that the library only calls, a function of that name which the library defines
itself is not found; the name stands for the value 0 of the undefined symbol. -/
theorem C77_undefined_shadows (path : Str) (e : Elf) (fuel : Nat) (i : SoInfo) (h : parseSoElf path e fuel = some (.ok i))
    (n : Str) (hn : n ≠ []) (u : RawSym) (hu : LastNamed (e.dynsym.getD []) n u) (_hundef : u.shndx = 0) (hv : u.value = 0)
    (d : RawSym) (_hd : d ∈ e.symtab.getD []) (_hdn : d.name = n) (hdv : d.value ≠ 0) :
    ∃ s, getSymbol i n = some s ∧ s.offset = 0 ∧ s.offset ≠ d.value := by
  unfold parseSoElf at h
  split at h <;> simp at h
  subst h
  rw [getSymbol_build, find_last hn hu]
  exact ⟨_, rfl, hv, fun h => hdv (h.symm.trans hv)⟩

/-- **C77** is false of the code for static functions of the same name: only the last one in the symbol table
can be patched, and nothing tells that there is another. -/
theorem C77_duplicates (path : Str) (e : Elf) (fuel : Nat) (i : SoInfo) (h : parseSoElf path e fuel = some (.ok i))
    (n : Str) (hn : n ≠ []) (hd : ∀ r ∈ e.dynsym.getD [], r.name ≠ n) (a b : RawSym) (_ha : a ∈ e.symtab.getD [])
    (_han : a.name = n) (hb : LastNamed (e.symtab.getD []) n b) (hab : a.value ≠ b.value) :
    ∃ s, getSymbol i n = some s ∧ s.offset = b.value ∧ s.offset ≠ a.value := by
  unfold parseSoElf at h
  split at h <;> simp at h
  subst h
  rw [getSymbol_build, find_none hd, find_last hn hb]
  exact ⟨_, rfl, rfl, hab.symm⟩

/-! ### Build ids -/

theorem align4_add12 (k : Nat) : align4 (0 + 12 + k) = 12 + align4 k := by
  unfold align4; omega

theorem le_align4 (k : Nat) : k ≤ align4 k := by unfold align4; omega

theorem padded_length (b : Bytes) : (padded b).length = align4 b.length := by
  have := le_align4 b.length
  simp [padded]; omega

theorem take_drop_mid {a b c : Bytes} {k : Nat} (h : a.length = k) : (((a ++ (b ++ c)).drop k).take b.length) = b := by
  rw [List.drop_left' h, List.take_left' rfl]

/-- The first note of a section. -/
theorem getNote_first (name : Bytes) (type : Nat) (desc rest : Bytes) (hn : name.length < 2 ^ 32) (hd : desc.length < 2 ^ 32)
    (ht : type < 2 ^ 32) : ∃ next, getNote (note name type desc ++ rest) 0 =
      some (type, 12 + align4 name.length, desc.length, next) ∧
      ((note name type desc ++ rest).drop (12 + align4 name.length)).take desc.length = desc := by
  have h1 := le_align4 name.length
  have h2 := le_align4 desc.length
  have hlen : (note name type desc ++ rest).length = 12 + align4 name.length + align4 desc.length + rest.length := by
    simp [note, padded_length]; omega
  have w0 : ((note name type desc ++ rest).drop (0 + 0)).take 4 = le 4 name.length := by
    simp only [note, List.append_assoc]
    rw [show (0 + 0) = 0 from rfl, List.drop_zero, List.take_left' (le_length 4 _)]
  have w4 : ((note name type desc ++ rest).drop (0 + 4)).take 4 = le 4 desc.length := by
    have := take_drop_mid (a := le 4 name.length) (b := le 4 desc.length)
      (c := le 4 type ++ (padded name ++ (padded desc ++ rest))) (k := 4) (le_length 4 _)
    rw [le_length] at this
    simpa [note, List.append_assoc] using this
  have w8 : ((note name type desc ++ rest).drop (0 + 8)).take 4 = le 4 type := by
    have := take_drop_mid (a := le 4 name.length ++ le 4 desc.length) (b := le 4 type)
      (c := (padded name ++ (padded desc ++ rest))) (k := 8) (by simp)
    rw [le_length] at this
    simpa [note, List.append_assoc] using this
  have wd : ((note name type desc ++ rest).drop (12 + align4 name.length)).take desc.length = desc := by
    have := take_drop_mid (a := le 4 name.length ++ (le 4 desc.length ++ (le 4 type ++ padded name))) (b := desc)
      (c := List.replicate (align4 desc.length - desc.length) 0 ++ rest) (k := 12 + align4 name.length)
      (by simp [padded_length]; omega)
    simpa [note, padded, List.append_assoc] using this
  refine ⟨align4 (12 + align4 name.length + desc.length), ?_, wd⟩
  unfold getNote
  simp only [w0, w4, w8, hlen, leVal_le_of_lt (show name.length < 256 ^ 4 by omega),
    leVal_le_of_lt (show desc.length < 256 ^ 4 by omega), leVal_le_of_lt (show type < 256 ^ 4 by omega), align4_add12]
  rw [if_neg (by omega), if_neg (by omega), if_neg (by omega)]

/-- **C78**, the part that is true: a build id in the first note of its section is found. -/
theorem C78_first_note_partial (e : Elf) (name desc rest : Bytes) (he : e.note = some (note name 3 desc ++ rest))
    (hn : name.length < 2 ^ 32) (hd : desc.length = 20) (fuel : Nat) :
    getElfBuildid e (fuel + 1) = some (.ok desc) := by
  obtain ⟨next, h, hb⟩ := getNote_first name 3 desc rest hn (by omega) (by decide)
  unfold getElfBuildid getBuildId
  simp only [he, noteLoop, h, NT_GNU_BUILD_ID, if_true, hb]
  rw [if_neg (by simp [buildIdLen]; omega)]
  simp [hd, buildIdLen]

/-- **C78** is false of the code: if another note is before the build id, the search goes on at offset 1 of the
section instead of at the next note, and the library is said to have no build id. -/
theorem C78_second_note_missed (e : Elf) (type : Nat) (desc id rest : Bytes)
    (he : e.note = some (note gnu type desc ++ (note gnu 3 id ++ rest)))
    (ht : type < 2 ^ 32) (ht3 : type ≠ 3) (hd : 0 < desc.length ∧ desc.length < 256)
    (hlen : (note gnu type desc ++ (note gnu 3 id ++ rest)).length < 2 ^ 24) (path : Str) (fuel : Nat) :
    parseSoElf path e (fuel + 2) = some .err := by
  obtain ⟨next, h, -⟩ := getNote_first gnu type desc (note gnu 3 id ++ rest) (by decide) (by omega) ht
  have h1 : getNote (note gnu type desc ++ (note gnu 3 id ++ rest)) 1 = none := by
    have w0 : ((note gnu type desc ++ (note gnu 3 id ++ rest)).drop (1 + 0)).take 4 =
        [0, 0, 0, UInt8.ofNat (desc.length % 256)] := by
      simp [note, gnu, le]
      exact UInt8.toNat_inj.mp (by simp)
    have wv : leVal [0, 0, 0, UInt8.ofNat (desc.length % 256)] = desc.length * 2 ^ 24 := by
      simp only [leVal, UInt8.toNat_ofNat']
      simp; omega
    unfold getNote
    simp only [w0, wv]
    split
    · rfl
    · rw [if_pos (by omega)]
  unfold parseSoElf getElfBuildid getBuildId
  simp only [he, noteLoop, h, h1, NT_GNU_BUILD_ID, if_neg ht3]

/-- **C78** With other notes before it the search does not even end: here a note of type 256
(`NT_GNU_BUILD_ATTRIBUTE_OPEN`) with an empty descriptor. -/
theorem C78_search_never_ends (e : Elf) (rest : Bytes) (he : e.note = some (note gnu 256 [] ++ rest))
    (path : Str) (fuel : Nat) : parseSoElf path e fuel = none := by
  obtain ⟨next, h, -⟩ := getNote_first gnu 256 [] rest (by decide) (by decide) (by decide)
  have h1 : ∃ t x y z, getNote (note gnu 256 [] ++ rest) 1 = some (t, x, y, z) ∧ t ≠ 3 := by
    have hh : note gnu 256 [] ++ rest = 4 :: 0 :: 0 :: 0 :: 0 :: 0 :: 0 :: 0 :: 0 :: 1 :: 0 :: 0 :: 71 :: 78 :: 85 :: 0 :: rest := by
      simp [note, gnu, le, padded, align4]
    rw [hh]
    refine ⟨1 + 71 * 2 ^ 24, 16, 0, 16, ?_, by decide⟩
    unfold getNote
    simp only [List.length_cons, List.drop, List.take, Nat.reduceAdd]
    rw [if_neg (by omega)]
    simp only [leVal]
    simp only [UInt8.toNat_zero, Nat.mul_zero, Nat.add_zero]
    rw [if_neg (by omega), if_neg (by simp [align4])]
    simp [align4]
  obtain ⟨t, x, y, z, h1, h3⟩ := h1
  have hl : ∀ f, noteLoop (note gnu 256 [] ++ rest) f 1 = none := by
    intro f
    induction f with
    | zero => rfl
    | succ f ih => simp only [noteLoop, h1, NT_GNU_BUILD_ID, if_neg h3, ih]
  unfold parseSoElf getElfBuildid getBuildId
  simp only [he]
  cases fuel with
  | zero => rfl
  | succ f => simp [noteLoop, h, NT_GNU_BUILD_ID, hl f]

/-- **C79**, the part that is true: what is accepted has a build id of 20 bytes. -/
theorem C79_accepted_length_partial (path : Str) (e : Elf) (fuel : Nat) (i : SoInfo)
    (h : parseSoElf path e fuel = some (.ok i)) : i.buildId.length = 20 := by
  unfold parseSoElf at h
  split at h <;> simp at h
  rename_i id hid
  subst h
  show id.length = 20
  unfold getElfBuildid at hid
  split at hid
  · simp at hid
  · split at hid
    · split at hid
      · rename_i hl
        simp at hid
        subst hid
        exact hl
      · simp at hid
    · rename_i r hr
      rw [hid] at hr
      exact absurd rfl (hr id)

/-- **C79** is false of the code: longer build ids (for example of SHA-256) are copied over the end of the
buffer, before their length is looked at. -/
theorem C79_long_id_overflows (path : Str) (e : Elf) (name desc rest : Bytes)
    (he : e.note = some (note name 3 desc ++ rest)) (hn : name.length < 2 ^ 32)
    (hd : 20 < desc.length ∧ desc.length < 2 ^ 32) (fuel : Nat) : parseSoElf path e (fuel + 1) = some .ub := by
  obtain ⟨next, h, -⟩ := getNote_first name 3 desc rest hn hd.2 (by decide)
  unfold parseSoElf getElfBuildid getBuildId
  simp only [he, noteLoop, h, NT_GNU_BUILD_ID, if_true]
  rw [if_pos (by simp [buildIdLen]; omega)]

/-- **C79** is false of the code: for shorter ones (for example of MD5) the tool is aborted by an assertion. -/
theorem C79_short_id_aborts (path : Str) (e : Elf) (name desc rest : Bytes)
    (he : e.note = some (note name 3 desc ++ rest)) (hn : name.length < 2 ^ 32)
    (hd : desc.length < 20) (fuel : Nat) : parseSoElf path e (fuel + 1) = some .abort := by
  obtain ⟨next, h, hb⟩ := getNote_first name 3 desc rest hn (by omega) (by decide)
  unfold parseSoElf getElfBuildid getBuildId
  simp only [he, noteLoop, h, NT_GNU_BUILD_ID, if_true, hb]
  rw [if_neg (by simp [buildIdLen]; omega)]
  simp only
  rw [if_neg (by simp [buildIdLen]; omega)]

/-! ### Cases -/

def demoId : Bytes := List.replicate 20 9
def raw (n : Str) (v : Nat) (x : Nat) : RawSym := ⟨n, BitVec.ofNat 64 v, 16, 18, 0, x⟩
/-- A library that calls `x`, exports `f`, and has its own static `x` and two static functions `g`. -/
def demoElf : Elf :=
  ⟨some [raw [] 0 0, raw [120] 0 0, raw [102] 4096 7], some [raw [120] 64 7, raw [103] 128 7, raw [103] 256 7, raw [104] 512 7],
    some (note gnu 3 demoId)⟩

theorem demoElf_parse : parseSoElf [108] demoElf 1 = some (.ok ⟨[108], demoId, buildSymbolsList demoElf⟩) := by
  decide +kernel

example : getSymbol ⟨[108], demoId, buildSymbolsList demoElf⟩ [102] = some (mkSym (raw [102] 4096 7)) := by decide +kernel

example : ∀ s, getSymbol ⟨[108], demoId, buildSymbolsList demoElf⟩ [104] = some s → s.offset = 512 :=
  (C77_lookup_partial _ _ _ _ demoElf_parse [104] (by simp)).2.2 512 (by decide +kernel)

example : ∃ s, getSymbol ⟨[108], demoId, buildSymbolsList demoElf⟩ [120] = some s ∧ s.offset = 0 ∧ s.offset ≠ 64 :=
  C77_undefined_shadows _ _ _ _ demoElf_parse [120] (by simp) (raw [120] 0 0)
    ⟨[raw [] 0 0], [raw [102] 4096 7], rfl, rfl, by decide⟩ rfl rfl (raw [120] 64 7) (by decide) rfl (by decide)

example : ∃ s, getSymbol ⟨[108], demoId, buildSymbolsList demoElf⟩ [103] = some s ∧ s.offset = 256 ∧ s.offset ≠ 128 :=
  C77_duplicates _ _ _ _ demoElf_parse [103] (by simp) (by decide) (raw [103] 128 7) (raw [103] 256 7) (by decide) rfl
    ⟨[raw [120] 64 7, raw [103] 128 7], [raw [104] 512 7], rfl, rfl, by decide⟩ (by decide)

example : getElfBuildid demoElf 1 = some (.ok demoId) :=
  C78_first_note_partial demoElf gnu demoId [] (by simp [demoElf]) (by decide) (by simp [demoId]) 0

/-- An ABI tag before the build id. -/
example : parseSoElf [108] ⟨none, none, some (note gnu 1 (List.replicate 16 1) ++ (note gnu 3 demoId ++ []))⟩ 2 = some .err :=
  C78_second_note_missed _ 1 (List.replicate 16 1) demoId [] rfl (by decide) (by decide) (by decide) (by decide +kernel) _ 0

example (fuel : Nat) : parseSoElf [108] ⟨none, none, some (note gnu 256 [] ++ note gnu 3 demoId)⟩ fuel = none :=
  C78_search_never_ends _ (note gnu 3 demoId) rfl _ fuel

example : (⟨[108], demoId, buildSymbolsList demoElf⟩ : SoInfo).buildId.length = 20 :=
  C79_accepted_length_partial _ _ _ _ demoElf_parse

example : parseSoElf [108] ⟨none, none, some (note gnu 3 (List.replicate 32 1) ++ [])⟩ 1 = some .ub :=
  C79_long_id_overflows _ _ gnu (List.replicate 32 1) [] rfl (by decide) (by decide) 0

example : parseSoElf [108] ⟨none, none, some (note gnu 3 (List.replicate 16 1) ++ [])⟩ 1 = some .abort :=
  C79_short_id_aborts _ _ gnu (List.replicate 16 1) [] rfl (by decide) (by decide) 0

/-- Debug information without notes. -/
example := C76_no_buildid_debuginfo (demoInfo 8192) [100] { demoElf with note := none } rfl

end Verif.Extract
