import Verif.Json.Lemmas

/-!
# C179: a description of a library is read as it says, or refused
-/

namespace Verif.Json

open Verif.Extract

theorem clamp_small {n : Nat} (h : n < 2 ^ 31) : clamp (n : Int) = n := by unfold clamp; omega

theorem symbolOf_describes (kit : Kit) {o : J} {s : Sym} (h : DescribesSym o s) : symbolOf kit o = some s := by
  obtain ⟨hc, h1, h2, h3, h4, h5, h6, h7⟩ := h
  obtain ⟨n, off, z, ⟨i⟩, ⟨t⟩⟩ := s
  have hi : i.toNat < 2 ^ 31 := by have := i.isLt; omega
  have ht : t.toNat < 2 ^ 31 := by have := t.isLt; omega
  simp only [symbolOf, get_of_has h1, get_of_has h2, get_of_has h4, get_of_has h6, get_of_has h7, getString, getInt,
    takeWhile_cstr hc, clamp_small h3, clamp_small h5, Option.map_some, Option.some.injEq, Sym.mk.injEq, true_and]
  refine ⟨by simp, by simp, ?_, ?_⟩
  · congr 1
    show BitVec.ofInt 8 (clamp (i.toNat : Int)) = i
    rw [clamp_small hi]; simp
  · congr 1
    show BitVec.ofInt 8 (clamp (t.toNat : Int)) = t
    rw [clamp_small ht]; simp

theorem symbolsLoop_describes (kit : Kit) {l : List J} {ss : List Sym} (h : List.Forall₂ DescribesSym l ss) :
    symbolsLoop kit l = .ok ss := by
  induction h with
  | nil => rfl
  | cons h _ ih => simp [symbolsLoop, symbolOf_describes kit h, ih]

/-- With the head of the description in order, all depends on the symbols. -/
theorem parseTree_head (kit : Kit) {t lib : J} {name : Str} {id : Bytes} (ht : Has t kLibrary lib)
    (hh : Head lib name id) :
    parseTree kit t = match parseSymbols kit (get lib kSymbols) with
      | .ok l => .ok ⟨name, id, l⟩
      | .err => .err
      | .abort => .abort
      | .ub => .ub := by
  obtain ⟨pre, post, rfl, hp⟩ := ht
  obtain ⟨p2, q2, rfl, hp2⟩ := hh.name
  have hg : get (.obj (pre ++ (kLibrary, .obj (p2 ++ (kName, .str name) :: q2)) :: post)) kLibrary
      = .obj (p2 ++ (kName, .str name) :: q2) := get_of_has ⟨pre, post, rfl, hp⟩
  have hb := get_of_has hh.buildid
  have hn := get_of_has hh.name
  have hcb : CStr (Text.buildidToString id) := by
    intro c hc
    simp only [Text.buildidToString, List.mem_flatMap] at hc
    obtain ⟨b, _, hb⟩ := hc
    have key : ∀ n : Fin 16, Text.hexDigit n.val ≠ 0 := by decide
    simp only [Text.printHex, List.mem_cons, List.not_mem_nil, or_false] at hb
    have hlt : b.toNat < 256 := b.toNat_lt
    rcases hb with rfl | rfl
    · exact key ⟨b.toNat / 16, by omega⟩
    · exact key ⟨b.toNat % 16, by omega⟩
  simp only [parseTree, hg, hn, hb, getString, takeWhile_cstr hh.cstr, takeWhile_cstr hcb,
    Text.C39_buildid_round_trip _ hh.len]
  cases parseSymbols kit (get (.obj (p2 ++ (kName, .str name) :: q2)) kSymbols) <;> rfl

/-- **C179.**  A description in which all is there is read as it says, whatever else is in it and in whatever order. -/
theorem C179_read (kit : Kit) (t : J) (i : SoInfo) (h : Describes t i) : parseTree kit t = .ok i := by
  obtain ⟨lib, l, ht, hh, hs, hl⟩ := h
  rw [parseTree_head kit ht hh, get_of_has hs]
  simp [parseSymbols, symbolsLoop_describes kit hl]

/-- The symbol `f` at 4096 and its description, with an entry more and one that does not count. -/
def demoSym : Sym := ⟨[102], 4096, 16, 18, 0⟩
def demoSymTree : J :=
  .obj [(kSize, .int 16), (kOffset, .int 1), (kInfo, .int 18), (kName, .str [102]), ([120], .null), (kOther, .int 0),
    (kOffset, .int 4096)]

theorem demoSym_describes : DescribesSym demoSymTree demoSym where
  cstr := by unfold CStr; decide
  name := ⟨[(kSize, .int 16), (kOffset, .int 1), (kInfo, .int 18)], [([120], .null), (kOther, .int 0),
    (kOffset, .int 4096)], rfl, by decide⟩
  offset := ⟨[(kSize, .int 16), (kOffset, .int 1), (kInfo, .int 18), (kName, .str [102]), ([120], .null),
    (kOther, .int 0)], [], rfl, by decide⟩
  offsetFits := by decide
  size := ⟨[], [(kOffset, .int 1), (kInfo, .int 18), (kName, .str [102]), ([120], .null), (kOther, .int 0),
    (kOffset, .int 4096)], rfl, by decide⟩
  sizeFits := by decide
  info := ⟨[(kSize, .int 16), (kOffset, .int 1)], [(kName, .str [102]), ([120], .null), (kOther, .int 0),
    (kOffset, .int 4096)], rfl, by decide⟩
  other := ⟨[(kSize, .int 16), (kOffset, .int 1), (kInfo, .int 18), (kName, .str [102]), ([120], .null)],
    [(kOffset, .int 4096)], rfl, by decide⟩

def demoId : Bytes := List.replicate 20 171

/-- A library `a.so` with the given symbols. -/
def demoLib (symbols : List (Str × J)) : J :=
  .obj ((kName, .str [97, 46, 115, 111]) :: (kBuildid, .str (Text.buildidToString demoId)) :: symbols)

theorem demoLib_head (v : J) : Head (demoLib [(kSymbols, v)]) [97, 46, 115, 111] demoId where
  cstr := by unfold CStr; decide
  name := ⟨[], _, rfl, by
    intro e he
    rcases List.mem_cons.1 he with rfl | he
    · exact (by decide : kBuildid ≠ kName)
    · rcases List.mem_cons.1 he with rfl | he
      · exact (by decide : kSymbols ≠ kName)
      · simp at he⟩
  len := rfl
  buildid := ⟨[(kName, .str [97, 46, 115, 111])], [(kSymbols, v)], rfl, by
    intro e he
    rcases List.mem_cons.1 he with rfl | he
    · exact (by decide : kSymbols ≠ kBuildid)
    · simp at he⟩

theorem demo_has (v : J) : Has (demoLib [(kSymbols, v)]) kSymbols v :=
  ⟨[(kName, .str [97, 46, 115, 111]), (kBuildid, .str (Text.buildidToString demoId))], [], rfl, by simp⟩

theorem demo_library (v : J) : Has (.obj [(kLibrary, v)]) kLibrary v := ⟨[], [], rfl, by simp⟩

example (kit : Kit) :
    parseTree kit (.obj [(kLibrary, demoLib [(kSymbols, .arr [demoSymTree])])]) =
      .ok ⟨[97, 46, 115, 111], demoId, [demoSym]⟩ :=
  C179_read kit _ ⟨[97, 46, 115, 111], demoId, [demoSym]⟩
    ⟨_, _, demo_library _, demoLib_head _, demo_has _, .cons demoSym_describes .nil⟩

/-- **C179 (partial).**  A description without a library, a name or a build id is refused. -/
theorem C179_refused_partial (kit : Kit) (t : J)
    (h : Lacks t kLibrary ∨ ∃ lib, Has t kLibrary lib ∧ (Lacks lib kName ∨ Lacks lib kBuildid)) :
    parseTree kit t = .err := by
  have main : ∀ lib, get t kLibrary = lib → (lib = .null ∨ get lib kName = .null ∨ get lib kBuildid = .null) →
      parseTree kit t = .err := by
    intro lib hlib hc
    cases t with
    | obj l =>
      simp only [parseTree, hlib]
      cases lib with
      | null => rfl
      | obj m =>
        rcases hc with hc | hc | hc
        · cases hc
        · simp [hc, getString]
        · simp only [hc, getString]
          split <;> rfl
      | bool => simp [get, getString]
      | int => simp [get, getString]
      | double => simp [get, getString]
      | str => simp [get, getString]
      | arr => simp [get, getString]
    | null => rfl
    | bool => simp [parseTree, get]
    | int => simp [parseTree, get]
    | double => simp [parseTree, get]
    | str => simp [parseTree, get]
    | arr => simp [parseTree, get]
  rcases h with h | ⟨lib, h, hc⟩
  · exact main .null (get_of_lacks h) (Or.inl rfl)
  · exact main lib (get_of_has h) (Or.inr (hc.imp get_of_lacks get_of_lacks))

/-- A list of descriptions is none. -/
example (kit : Kit) : parseTree kit (.arr [.obj [(kLibrary, demoLib [])]]) = .err :=
  C179_refused_partial kit _ (Or.inl (Or.inl (by rintro v ⟨_, _, h, _⟩; cases h)))

/-- **C179.**  False of the tool where the list of symbols is missing or is no list: the tool crashes. -/
theorem C179_no_symbols (kit : Kit) (t lib : J) (name : Str) (id : Bytes) (ht : Has t kLibrary lib)
    (hh : Head lib name id) (hs : ∀ l, ¬ Has lib kSymbols (.arr l)) : Crashes (parseTree kit t) := by
  rw [parseTree_head kit ht hh]
  have : parseSymbols kit (get lib kSymbols) = .abort := by
    cases hg : get lib kSymbols with
    | arr l =>
      have := has_of_get (o := lib) (k := kSymbols) (by rw [hg]; simp)
      rw [hg] at this
      exact absurd this (hs l)
    | null => rfl
    | bool => rfl
    | int => rfl
    | double => rfl
    | str => rfl
    | obj => rfl
  simp [this, Crashes]

example (kit : Kit) : Crashes (parseTree kit (.obj [(kLibrary, demoLib [(kSymbols, .null)])])) :=
  C179_no_symbols kit _ _ _ _ (demo_library _) (demoLib_head _) (by
    intro l h
    have := get_of_has h
    rw [get_of_has (demo_has _)] at this
    cases this)

theorem symbolsLoop_nameless (kit : Kit) (l : List J) (o : J) (ho : o ∈ l) (hn : Lacks o kName) :
    symbolsLoop kit l = .ub := by
  induction l with
  | nil => simp at ho
  | cons a l ih =>
    simp only [symbolsLoop]
    rcases List.mem_cons.1 ho with rfl | ho
    · simp [symbolOf, get_of_lacks hn, getString]
    · rw [ih ho]
      cases symbolOf kit a <;> rfl

/-- **C179.**  And where one of the symbols has no name. -/
theorem C179_nameless (kit : Kit) (t lib : J) (name : Str) (id : Bytes) (ht : Has t kLibrary lib)
    (hh : Head lib name id) (l : List J) (hs : Has lib kSymbols (.arr l)) (o : J) (ho : o ∈ l) (hn : Lacks o kName) :
    Crashes (parseTree kit t) := by
  rw [parseTree_head kit ht hh, get_of_has hs]
  simp [parseSymbols, symbolsLoop_nameless kit l o ho hn, Crashes]

example (kit : Kit) : Crashes (parseTree kit (.obj [(kLibrary, demoLib [(kSymbols, .arr [demoSymTree, .int 3])])])) :=
  C179_nameless kit _ _ _ _ (demo_library _) (demoLib_head _) _ (demo_has _) (.int 3) (by simp)
    (Or.inl (by rintro v ⟨_, _, h, _⟩; cases h))

/-- All symbols have a name. -/
theorem symbolsLoop_named (kit : Kit) (l : List J) (hn : ∀ o ∈ l, ¬ Lacks o kName) :
    ∃ ss, symbolsLoop kit l = .ok ss ∧ List.Forall₂ (fun o s => symbolOf kit o = some s) l ss := by
  induction l with
  | nil => exact ⟨[], rfl, .nil⟩
  | cons a l ih =>
    obtain ⟨ss, h1, h2⟩ := ih fun o ho => hn o (by simp [ho])
    have ha : get a kName ≠ .null := by
      intro e
      refine hn a (by simp) ?_
      by_cases hh : ∃ v, Has a kName v
      · obtain ⟨v, hv⟩ := hh
        have := get_of_has hv
        rw [e] at this
        exact Or.inr (this ▸ hv)
      · exact Or.inl fun v hv => hh ⟨v, hv⟩
    obtain ⟨s, hs⟩ : ∃ s, symbolOf kit a = some s := by
      unfold symbolOf
      cases hg : get a kName with
      | null => exact absurd hg ha
      | bool => exact ⟨_, rfl⟩
      | int => exact ⟨_, rfl⟩
      | double => exact ⟨_, rfl⟩
      | str => exact ⟨_, rfl⟩
      | arr => exact ⟨_, rfl⟩
      | obj => exact ⟨_, rfl⟩
    exact ⟨s :: ss, by simp [symbolsLoop, hs, h1], .cons hs h2⟩

/-- **C179 (partial).**  Those are the only crashes, given a build id as `ulp extract` writes it: with a list of symbols
that all have names the description is taken. -/
theorem C179_taken_partial (kit : Kit) (t lib : J) (name : Str) (id : Bytes) (ht : Has t kLibrary lib)
    (hh : Head lib name id) (l : List J) (hs : Has lib kSymbols (.arr l)) (hn : ∀ o ∈ l, ¬ Lacks o kName) :
    ∃ i, parseTree kit t = .ok i ∧ i.name = name ∧ i.buildId = id ∧ i.symbols.length = l.length := by
  obtain ⟨ss, h1, h2⟩ := symbolsLoop_named kit l hn
  refine ⟨⟨name, id, ss⟩, ?_, rfl, rfl, h2.length_eq.symm⟩
  rw [parseTree_head kit ht hh, get_of_has hs]
  simp [parseSymbols, h1]

example (kit : Kit) : ∃ i, parseTree kit (.obj [(kLibrary, demoLib [(kSymbols, .arr [.obj [(kName, .int 5)]])])]) = .ok i ∧
    i.name = [97, 46, 115, 111] ∧ i.buildId = demoId ∧ i.symbols.length = 1 :=
  C179_taken_partial kit _ _ _ _ (demo_library _) (demoLib_head _) _ (demo_has _) (by
    intro o ho hl
    rw [List.mem_singleton] at ho
    subst ho
    have h1 : get (.obj [(kName, .int 5)]) kName = .int 5 := get_of_has ⟨[], [], rfl, by simp⟩
    rw [get_of_lacks hl] at h1
    cases h1)

theorem forall₂_split {α β : Type} (R : α → β → Prop) (a b : List α) (l : List β) (h : List.Forall₂ R (a ++ b) l) :
    ∃ l1 l2, List.Forall₂ R a l1 ∧ List.Forall₂ R b l2 ∧ l = l1 ++ l2 := by
  induction a generalizing l with
  | nil => exact ⟨[], l, .nil, h, rfl⟩
  | cons x a ih =>
    cases h with
    | cons h1 h2 =>
      obtain ⟨l1, l2, h3, h4, rfl⟩ := ih _ h2
      exact ⟨_ :: l1, l2, .cons h1 h3, h4, rfl⟩

/-- **C179.**  A symbol without an address, or with one that is a list or an object, is not refused: it is taken to be at
address 0. -/
theorem C179_no_address (kit : Kit) (t lib : J) (name : Str) (id : Bytes) (ht : Has t kLibrary lib)
    (hh : Head lib name id) (pre post : List J) (o : J) (hs : Has lib kSymbols (.arr (pre ++ o :: post)))
    (hn : ∀ x ∈ pre ++ o :: post, ¬ Lacks x kName)
    (ho : Lacks o kOffset ∨ (∃ l, Has o kOffset (.arr l)) ∨ ∃ l, Has o kOffset (.obj l)) :
    ∃ i s, parseTree kit t = .ok i ∧ i.symbols[pre.length]? = some s ∧ s.offset = 0 := by
  obtain ⟨ss, h1, h2⟩ := symbolsLoop_named kit _ hn
  obtain ⟨s1, s2, h3, h4, rfl⟩ : ∃ s1 s2, List.Forall₂ (fun o s => symbolOf kit o = some s) pre s1 ∧
      List.Forall₂ (fun o s => symbolOf kit o = some s) (o :: post) s2 ∧ ss = s1 ++ s2 :=
    forall₂_split _ pre (o :: post) ss h2
  cases h4 with
  | @cons _ s _ r hos hr =>
    refine ⟨⟨name, id, s1 ++ s :: r⟩, s, ?_, ?_, ?_⟩
    · rw [parseTree_head kit ht hh, get_of_has hs]
      simp [parseSymbols, h1]
    · simp [h3.length_eq]
    · have hz : getInt kit (get o kOffset) = 0 := by
        rcases ho with ho | ⟨l, ho⟩ | ⟨l, ho⟩
        · rw [get_of_lacks ho]; rfl
        · rw [get_of_has ho]; rfl
        · rw [get_of_has ho]; rfl
      unfold symbolOf at hos
      cases hg : getString kit (get o kName) with
      | none => simp [hg] at hos
      | some n =>
        simp only [hg, Option.map_some, Option.some.injEq] at hos
        subst hos
        simp [hz]

/-- The symbol `f` without any other entry. -/
theorem named (more : List (Str × J)) (hm : ∀ e ∈ more, e.1 ≠ kName) :
    ¬ Lacks (.obj ((kName, .str [102]) :: more)) kName := by
  intro hl
  have h1 : get (.obj ((kName, .str [102]) :: more)) kName = .str [102] := get_of_has ⟨[], more, rfl, hm⟩
  rw [get_of_lacks hl] at h1
  cases h1

example (kit : Kit) : ∃ i s, parseTree kit (.obj [(kLibrary, demoLib [(kSymbols, .arr [.obj [(kName, .str [102])]])])]) = .ok i ∧
    i.symbols[0]? = some s ∧ s.offset = 0 :=
  C179_no_address kit _ _ _ _ (demo_library _) (demoLib_head _) [] [] _ (demo_has _)
    (by intro x hx; simp at hx; subst hx; exact named [] (by simp))
    (Or.inl (Or.inl (by
      rintro v ⟨p, q, h, _⟩
      simp only [J.obj.injEq] at h
      cases p with
      | nil => simp only [List.nil_append, List.cons.injEq, Prod.mk.injEq] at h; exact absurd h.1.1 (by decide)
      | cons a p => simp at h)))

/-- **C179.**  And an address of 2 GiB or more is not refused: the symbol is taken to be at the last byte below. -/
theorem C179_large_address (kit : Kit) (t lib : J) (name : Str) (id : Bytes) (ht : Has t kLibrary lib)
    (hh : Head lib name id) (pre post : List J) (o : J) (hs : Has lib kSymbols (.arr (pre ++ o :: post)))
    (hn : ∀ x ∈ pre ++ o :: post, ¬ Lacks x kName) (a : Nat) (ha : 2 ^ 31 ≤ a) (ho : Has o kOffset (.int a)) :
    ∃ i s, parseTree kit t = .ok i ∧ i.symbols[pre.length]? = some s ∧ s.offset.toNat = 2 ^ 31 - 1 := by
  obtain ⟨ss, h1, h2⟩ := symbolsLoop_named kit _ hn
  obtain ⟨s1, s2, h3, h4, rfl⟩ : ∃ s1 s2, List.Forall₂ (fun o s => symbolOf kit o = some s) pre s1 ∧
      List.Forall₂ (fun o s => symbolOf kit o = some s) (o :: post) s2 ∧ ss = s1 ++ s2 :=
    forall₂_split _ pre (o :: post) ss h2
  cases h4 with
  | @cons _ s _ r hos hr =>
    refine ⟨⟨name, id, s1 ++ s :: r⟩, s, ?_, ?_, ?_⟩
    · rw [parseTree_head kit ht hh, get_of_has hs]
      simp [parseSymbols, h1]
    · simp [h3.length_eq]
    · have hz : getInt kit (get o kOffset) = 2147483647 := by
        rw [get_of_has ho]
        show clamp (a : Int) = 2147483647
        unfold clamp; omega
      unfold symbolOf at hos
      cases hg : getString kit (get o kName) with
      | none => simp [hg] at hos
      | some n =>
        simp only [hg, Option.map_some, Option.some.injEq] at hos
        subst hos
        simp [hz]

example (kit : Kit) : ∃ i s, parseTree kit (.obj [(kLibrary, demoLib [(kSymbols,
      .arr [.obj [(kName, .str [102]), (kOffset, .int 4294967296)]])])]) = .ok i ∧
    i.symbols[0]? = some s ∧ s.offset.toNat = 2 ^ 31 - 1 :=
  C179_large_address kit _ _ _ _ (demo_library _) (demoLib_head _) [] [] _ (demo_has _)
    (by intro x hx; simp at hx; subst hx; exact named _ (by
          intro e he; rw [List.mem_singleton] at he; subst he; exact (by decide : kOffset ≠ kName)))
    4294967296 (by decide) ⟨[(kName, .str [102])], [], rfl, by simp⟩

/-! ### C75 for trees -/

theorem toInt_clamp (b : BitVec 32) : clamp b.toInt = b.toInt := by
  have h1 := BitVec.toInt_lt (x := b)
  have h2 := BitVec.le_toInt (x := b)
  unfold clamp
  omega

theorem symbolOf_tree (kit : Kit) (s : Sym) (hs : CStr s.name) :
    symbolOf kit (symbolTree s) = some (parseSym (jsonSym s)) := by
  have g1 : get (symbolTree s) kName = .str s.name := rfl
  have g2 : get (symbolTree s) kOffset = .int (jsonSym s).offset.toInt := rfl
  have g3 : get (symbolTree s) kSize = .int (jsonSym s).size.toInt := rfl
  have g4 : get (symbolTree s) kInfo = .int (jsonSym s).info.toInt := rfl
  have g5 : get (symbolTree s) kOther = .int (jsonSym s).other.toInt := rfl
  simp only [symbolOf, g1, g2, g3, g4, g5, getString, getInt, toInt_clamp, takeWhile_cstr hs, Option.map_some,
    Option.some.injEq, parseSym, Sym.mk.injEq]
  refine ⟨rfl, rfl, ?_, ?_, ?_⟩
  · simp only [BitVec.ofInt_toInt]
    ext k hk
    simp [BitVec.getLsbD_signExtend, hk]
    omega
  · congr 1
    exact BitVec.signExtend_eq_setWidth_of_le _ (by decide)
  · congr 1
    exact BitVec.signExtend_eq_setWidth_of_le _ (by decide)

theorem symbolsLoop_tree (kit : Kit) (l : List Sym) (hs : ∀ s ∈ l, CStr s.name) :
    symbolsLoop kit (l.map symbolTree) = .ok (l.map (parseSym ∘ jsonSym)) := by
  induction l with
  | nil => rfl
  | cons s l ih =>
    simp only [List.map_cons, symbolsLoop, symbolOf_tree kit s (hs s (by simp)), ih fun x hx => hs x (by simp [hx])]
    rfl

/-- **C75**, with the trees of json-c in between: what the reader of any JSON file makes of the tree that `ulp extract`
writes is what was written, if and only if all offsets fit 32 bits with sign. -/
theorem C75_tree_roundtrip_partial (kit : Kit) (i : SoInfo) (hid : i.buildId.length = 20) (hn : CStr i.name)
    (hs : ∀ s ∈ i.symbols, CStr s.name) :
    parseTree kit (treeOf i) = .ok i ↔
      ∀ s ∈ i.symbols, s.offset.toNat < 2 ^ 31 ∨ 2 ^ 64 - 2 ^ 31 ≤ s.offset.toNat := by
  rw [← C75_json_roundtrip_partial i hid, parse_write i hid]
  have hl : Has (treeOf i) kLibrary (.obj [(kName, .str i.name), (kBuildid, .str (Text.buildidToString i.buildId)),
    (kSymbols, .arr (i.symbols.map symbolTree))]) := ⟨[], [], rfl, by simp⟩
  have hh : Head (.obj [(kName, .str i.name), (kBuildid, .str (Text.buildidToString i.buildId)),
    (kSymbols, .arr (i.symbols.map symbolTree))]) i.name i.buildId := by
    refine ⟨hn, ⟨[], _, rfl, ?_⟩, hid, ⟨[(kName, .str i.name)], _, rfl, ?_⟩⟩
    · intro e he
      rcases List.mem_cons.1 he with rfl | he
      · exact (by decide : kBuildid ≠ kName)
      · rcases List.mem_cons.1 he with rfl | he
        · exact (by decide : kSymbols ≠ kName)
        · simp at he
    · intro e he
      rcases List.mem_cons.1 he with rfl | he
      · exact (by decide : kSymbols ≠ kBuildid)
      · simp at he
  rw [parseTree_head kit hl hh]
  have hg : get (.obj [(kName, .str i.name), (kBuildid, .str (Text.buildidToString i.buildId)),
    (kSymbols, .arr (i.symbols.map symbolTree))]) kSymbols = .arr (i.symbols.map symbolTree) := rfl
  rw [hg]
  simp only [parseSymbols, symbolsLoop_tree kit _ hs]

example (kit : Kit) : parseTree kit (treeOf ⟨[97], demoId, [demoSym]⟩) = .ok ⟨[97], demoId, [demoSym]⟩ :=
  (C75_tree_roundtrip_partial kit ⟨[97], demoId, [demoSym]⟩ rfl (by unfold CStr; decide) (by unfold CStr; decide)).2
    (by decide)

/-! ### The kind of a file -/

/-- **C179.**  A file is taken for a library exactly if it starts as an ELF file does, and for a description otherwise;
nothing shorter than five bytes is taken for anything. -/
theorem C179_kind (b : Bytes) :
    (kindOf (some b) = .elf ↔ ∃ x r, b = 127 :: 69 :: 76 :: 70 :: x :: r) ∧
    (kindOf (some b) = .refused ↔ b.length < 5) ∧ kindOf none = .refused := by
  refine ⟨?_, ?_, rfl⟩
  · match b with
    | [] => simp [kindOf]
    | [_] => simp [kindOf]
    | [_, _] => simp [kindOf]
    | [_, _, _] => simp [kindOf]
    | [_, _, _, _] => simp [kindOf]
    | a :: b :: c :: d :: x :: r =>
      simp only [kindOf, List.take_succ_cons, List.take_zero, List.length_cons, List.length_nil, ne_eq, not_true_eq_false,
        ↓reduceIte, List.cons.injEq, and_true]
      by_cases h : a = 127 ∧ b = 69 ∧ c = 76 ∧ d = 70
      · rw [if_pos h]
        obtain ⟨rfl, rfl, rfl, rfl⟩ := h
        simp
      · rw [if_neg h]
        constructor
        · intro h; cases h
        · rintro ⟨y, q, h1, h2, h3, h4, _⟩
          exact absurd ⟨h1, h2, h3, h4⟩ h
  · simp only [kindOf, List.length_take]
    by_cases h : b.length < 5
    · simp [h]; omega
    · have : min 5 b.length = 5 := by omega
      simp only [this, ne_eq, not_true_eq_false, ↓reduceIte, h, iff_false]
      split <;> simp

/-- `{ "li...`, and the start of an ELF file. -/
example : kindOf (some [123, 32, 34, 108, 105, 98]) = .json ∧ kindOf (some [127, 69, 76, 70, 2, 1]) = .elf := by
  decide

end Verif.Json
