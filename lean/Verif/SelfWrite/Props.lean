import Verif.SelfWrite.Lemmas

/-!
Properties C100-C102: writes of libpulp into its own process.
-/

namespace Verif.SelfWrite

open Verif.InsnQueue (Queue Req Holds insertAll? bufMax)
open Verif.InsnQueue.Spec (asked perform room)

/-! ### a demonstration system -/

/-- A file that lists the pages one by one. -/
def demoMap (p : Nat) (pr : Prot) : Mapping :=
  { start := p * 4096, stop := p * 4096 + 4096, prot := pr,
    rest := "p 00000000 08:01 42      /lib64/libc.so.6".toUTF8.toList }

def demoMaps (limit : Nat) (pages : Nat → Option Prot) : List Mapping :=
  (List.range limit).filterMap fun p => (pages p).map (demoMap p)

/-- What the line buffer holds at first. -/
def demoJunk : Bytes := List.replicate 2048 65

theorem demoJunk_length : demoJunk.length = 2048 := List.length_replicate

/-- Pages 4096 bytes long, of which the first 16 may be mapped; nothing is refused. -/
def demoSys : Sys where
  pageSize := 4096
  maps := fun pages => fileText (demoMaps 16 pages)
  openErr := fun _ _ => none
  oldErrno := fun _ _ => 2
  junk := fun _ _ => demoJunk
  deny := fun _ _ => none
  denyBack := fun _ _ => none

theorem protOf_demoMaps (pages : Nat → Option Prot) (limit page : Nat) :
    protOf (demoMaps limit pages) (page * 4096) = if page < limit then pages page else none := by
  induction limit with
  | zero => simp [protOf, demoMaps]
  | succ limit ih =>
    have e : demoMaps (limit + 1) pages =
        demoMaps limit pages ++ ((pages limit).map (demoMap limit)).toList := by
      unfold demoMaps
      rw [List.range_succ, List.filterMap_append]
      congr 1
    unfold protOf at ih ⊢
    rw [e, List.find?_append]
    cases hf : (demoMaps limit pages).find? (fun m => decide (m.Has (page * 4096))) with
    | some m =>
      rw [hf] at ih
      by_cases hp : page < limit
      · rw [if_pos hp] at ih
        rw [if_pos (by omega), ← ih]; rfl
      · rw [if_neg hp] at ih; simp at ih
    | none =>
      rw [hf] at ih
      simp only [Option.map_none] at ih
      by_cases hp : page < limit
      · rw [if_pos hp] at ih
        rw [if_pos (by omega), ← ih]
        cases hl : pages limit with
        | none => rfl
        | some p =>
          have : ¬ (demoMap limit p).Has (page * 4096) := by simp [demoMap, Mapping.Has]; omega
          simp [this]
      · by_cases hq : page = limit
        · subst hq
          rw [if_pos (by omega)]
          cases hl : pages page with
          | none => rfl
          | some p =>
            have : (demoMap page p).Has (page * 4096) := by simp [demoMap, Mapping.Has]
            simp only [Option.map_some, Option.toList_some, List.find?_cons, this, decide_true]
            rfl
        · rw [if_neg (by omega)]
          cases hl : pages limit with
          | none => rfl
          | some p =>
            have : ¬ (demoMap limit p).Has (page * 4096) := by simp [demoMap, Mapping.Has]; omega
            simp [this]

theorem demoMap_ok {p pr} (hp : p < 16) : (demoMap p pr).Ok ∧ (demoMap p pr).Short := by
  rcases pr with ⟨r, w, x⟩
  have : ∀ (p : Fin 16) (r w x : Bool), (demoMap p.val ⟨r, w, x⟩).Ok ∧ (demoMap p.val ⟨r, w, x⟩).Short := by
    decide +kernel
  exact this ⟨p, hp⟩ r w x

theorem demoSys_honest : Honest demoSys 16 := by
  refine ⟨by decide, by decide, fun _ _ => demoJunk_length, ?_⟩
  intro pages hl
  refine ⟨demoMaps 16 pages, ?_, rfl, ?_⟩
  · intro m hm
    simp only [demoMaps, List.mem_filterMap, List.mem_range, Option.map_eq_some_iff] at hm
    obtain ⟨p, hp, pr, _, rfl⟩ := hm
    exact demoMap_ok hp
  · intro page
    have := protOf_demoMaps pages 16 page
    rw [show demoSys.pageSize = 4096 from rfl, this]
    split
    · rfl
    · rw [hl page (by omega)]

/-- Code in pages 4 and 5, data in pages 6 and 7. -/
def demoPages : Nat → Option Prot
  | 4 => some ⟨true, false, true⟩
  | 5 => some ⟨true, false, true⟩
  | 6 => some ⟨true, true, false⟩
  | 7 => some ⟨true, true, false⟩
  | _ => none

theorem demoPages_limit : ∀ p, 16 ≤ p → demoPages p = none := by
  intro p hp
  unfold demoPages
  split <;> first | omega | rfl

def demoSt : St := { mem := fun _ => 0, pages := demoPages }

/-! ### C100 -/

/-- **C100** (partial: lines of 2048 bytes and more must not come before) The protection libpulp finds
for an address is the one `/proc/self/maps` gives, and an address that is not listed is answered with
an error. -/
theorem C100_protection_as_listed_partial (ms : List Mapping) (addr : Nat) (junk : Bytes)
    (hok : ∀ m ∈ ms, m.Ok ∧ m.Short) (hb : junk.length = 2048) :
    protGet junk (fileText ms) addr = protOf ms addr := by
  rw [protGet_eq ms addr junk (fun m h => (hok m h).1) hb,
    takeWhile_all (by intro m h; simpa using (hok m h).2)]

/-- **C100** fails in general: a mapping whose line has 2048 bytes or more, which a file with a long
path name brings about, hides itself and all mappings behind it. -/
theorem C100_long_line_hides_the_rest (pre : List Mapping) (m : Mapping) (post : List Mapping)
    (addr : Nat) (junk : Bytes) (hok : ∀ m' ∈ pre ++ m :: post, m'.Ok)
    (hb : junk.length = 2048) (hlong : 2048 ≤ m.text.length)
    (hpre : ∀ m' ∈ pre, ¬ m'.Has addr) : protGet junk (fileText (pre ++ m :: post)) addr = none := by
  rw [protGet_eq _ _ _ hok hb]
  have hs : ¬ m.Short := by unfold Mapping.Short; omega
  have hsub : ∀ m' ∈ (pre ++ m :: post).takeWhile (fun m => decide m.Short), m' ∈ pre := by
    intro m' hm'
    clear hok hpre
    induction pre with
    | nil => simp [hs] at hm'
    | cons x pre ih =>
      simp only [List.cons_append, List.takeWhile_cons] at hm'
      split at hm'
      · rcases List.mem_cons.mp hm' with rfl | h
        · simp
        · exact List.mem_cons_of_mem _ (ih h)
      · simp at hm'
  unfold protOf
  rw [Option.map_eq_none_iff, List.find?_eq_none]
  intro m' hm'
  simpa using hpre m' (hsub m' hm')

/-- The file of the demonstration: code and data of a library. -/
def demoFile : List Mapping := demoMaps 16 demoPages

example : ∀ m ∈ demoFile, m.Ok ∧ m.Short := by decide +kernel

example : protGet demoJunk (fileText demoFile) 0x5123 = some ⟨true, false, true⟩ := by
  rw [C100_protection_as_listed_partial _ _ _ (by decide +kernel) demoJunk_length]
  decide +kernel

/-- A file mapped from a path of 2000 characters. -/
def demoLong : Mapping := { demoMap 1 ⟨true, false, false⟩ with
  rest := "p 00000000 08:01 42 /".toUTF8.toList ++ List.replicate 2010 97 }

theorem demoLong_ok : demoLong.Ok := by
  refine ⟨by decide, by decide, ?_⟩
  intro b hb
  simp only [demoLong, List.mem_append, List.mem_replicate] at hb
  rcases hb with hb | ⟨_, rfl⟩
  · have : ∀ b ∈ "p 00000000 08:01 42 /".toUTF8.toList, b ≠ 10 := by decide +kernel
    exact this b hb
  · decide

example : protGet demoJunk (fileText ([demoLong] ++ demoMap 4 ⟨true, false, true⟩ :: [])) 0x4123
    = none ∧ protOf ([demoLong] ++ demoMap 4 ⟨true, false, true⟩ :: []) 0x4123 = some ⟨true, false, true⟩ := by
  constructor
  · have hl : 2048 ≤ demoLong.text.length := by
      have h1 : ∀ n, 8 ≤ (hex8 n).length := hex8_length
      have h2 : (8 ≤ (hex8 demoLong.start).length ∧ 8 ≤ (hex8 demoLong.stop).length) := ⟨h1 _, h1 _⟩
      have h3 : "p 00000000 08:01 42 /".toUTF8.toList.length = 21 := by decide +kernel
      have h4 : demoLong.rest.length = 2031 := by
        rw [show demoLong.rest = "p 00000000 08:01 42 /".toUTF8.toList ++ List.replicate 2010 97 from rfl,
          List.length_append, h3, List.length_replicate]
      simp only [Mapping.text, List.length_append, List.length_cons, List.length_nil, h4]
      omega
    refine C100_long_line_hides_the_rest [] demoLong _ _ _ ?_ demoJunk_length hl (by simp)
    intro m hm
    rcases List.mem_cons.mp hm with rfl | hm
    · exact demoLong_ok
    · rw [List.mem_singleton.mp hm]
      exact (demoMap_ok (by decide)).1
  · decide +kernel

/-! ### C101 -/

theorem writeInsn_error {sys : Sys} {i a e : Nat} {s : St} {bytes : Bytes}
    (h : getProts sys s.pages i a (numPages sys.pageSize a bytes.length) 0 = .error e) :
    writeInsn sys i s a bytes = (s, some e) := by
  simp only [writeInsn, h]

theorem writeInsn_ok {sys : Sys} {i a : Nat} {s : St} {bytes : Bytes} {l : List Prot}
    (h : getProts sys s.pages i a (numPages sys.pageSize a bytes.length) 0 = .ok l) :
    writeInsn sys i s a bytes = writeWith sys i s a bytes l := by
  simp only [writeInsn, h]

/-- Case analysis of a write on a real system. -/
theorem writeInsn_cases {sys : Sys} {limit} (hs : Honest sys limit) (i : Nat) (s : St) (a : Nat)
    (bytes : Bytes) (hl : ∀ p, limit ≤ p → s.pages p = none) (ha : a + bytes.length < 2 ^ 64) :
    (∃ e, writeInsn sys i s a bytes = (s, some e) ∧
      ¬ ∃ l : List Prot, l.length = numPages sys.pageSize a bytes.length ∧
        Prots s.pages (a / sys.pageSize) l ∧ ∀ k, k < l.length → sys.openErr i k = none) ∨
    (∃ l : List Prot, l.length = numPages sys.pageSize a bytes.length ∧
        Prots s.pages (a / sys.pageSize) l ∧ (∀ k, k < l.length → sys.openErr i k = none) ∧
      ((∃ k e, k < l.length ∧ (∀ k', k' < k → sys.deny i k' = none) ∧ sys.deny i k = some e ∧
        writeInsn sys i s a bytes =
          ({ s with pages := overlay s.pages (a / sys.pageSize) ((l.take k).map fun p => { p with w := true }) },
            some e)) ∨
       ((∀ k, k < l.length → sys.deny i k = none) ∧
        ∃ k, k ≤ l.length ∧ (∀ k', k' < k → sys.denyBack i k' = none) ∧
          (k < l.length → sys.denyBack i k ≠ none) ∧
          writeInsn sys i s a bytes =
            ({ mem := s.mem.store a bytes,
               pages := overlay (overlay s.pages (a / sys.pageSize) (l.map fun p => { p with w := true }))
                 (a / sys.pageSize) (l.take k) },
              if k = l.length then none else sys.denyBack i k)))) := by
  have hnum := numPages_eq (ps := sys.pageSize) ha
  have hle : a / sys.pageSize ≤ (a + bytes.length) / sys.pageSize := Nat.div_le_div_right (by omega)
  have hok := getProts_ok hs hl i a bytes.length (numPages sys.pageSize a bytes.length) 0 ha
    (by intro _; rw [hnum]; omega)
  simp only [Nat.add_zero, Nat.zero_add] at hok
  cases hg : getProts sys s.pages i a (numPages sys.pageSize a bytes.length) 0 with
  | error e =>
    left
    refine ⟨e, writeInsn_error hg, ?_⟩
    rintro ⟨l, h1, h2, h3⟩
    have := (hok l).mpr ⟨h1, h2, by rw [← h1]; exact h3⟩
    simp [hg] at this
  | ok l =>
    right
    obtain ⟨h1, h2, h3⟩ := (hok l).mp hg
    have hw := writeInsn_ok (bytes := bytes) hg
    refine ⟨l, h1, h2, by rw [h1]; exact h3, ?_⟩
    have hmap : ∀ k, k < l.length → s.pages (a / sys.pageSize + 0 + k) ≠ none := by
      intro k hk
      rw [Nat.add_zero, h2 k l[k] (by simp [hk])]
      simp
    obtain ⟨k, k1, k2, k3, k4⟩ := setProts_eq hs.1 a bytes.length (sys.deny i)
      (l.map fun p => { p with w := true }) 0 s.pages ha
      (by intro _; simp only [List.length_map]; rw [h1, hnum]; omega)
      (by intro k hk; exact hmap k (by simpa using hk))
    simp only [List.length_map, Nat.zero_add, Nat.add_zero] at k1 k2 k3 k4
    by_cases hk : k = l.length
    · right
      refine ⟨by intro k' hk'; exact k2 k' (by omega), ?_⟩
      rw [if_pos hk, hk, List.take_of_length_le (by simp)] at k3
      obtain ⟨j, j1, j2, j3, j4⟩ := setProts_eq hs.1 a bytes.length (sys.denyBack i)
        l 0 (overlay s.pages (a / sys.pageSize) (l.map fun p => { p with w := true })) ha
        (by intro _; rw [h1, hnum]; omega)
        (by intro k hk
            unfold overlay
            simp only [Nat.add_zero, List.length_map]
            rw [if_pos (by omega)]
            rw [show a / sys.pageSize + k - a / sys.pageSize = k by omega]
            simp [hk])
      simp only [Nat.zero_add, Nat.add_zero] at j2 j3 j4
      refine ⟨j, j1, j2, j4, ?_⟩
      rw [hw]
      unfold writeWith
      simp only [k3, j3]
    · left
      have hlt : k < l.length := by omega
      obtain ⟨e, he⟩ := Option.ne_none_iff_exists'.mp (k4 hlt)
      refine ⟨k, e, hlt, k2, he, ?_⟩
      rw [if_neg hk, he] at k3
      rw [hw]
      unfold writeWith
      simp only [k3, List.map_take]

theorem overlay_prots {pages : Nat → Option Prot} {p0 l l'} (h : Prots pages p0 l)
    (hl : l'.length ≤ l.length) : overlay (overlay pages p0 l') p0 l = pages := by
  funext q
  unfold overlay
  by_cases hq : p0 ≤ q ∧ q < p0 + l.length
  · rw [if_pos hq]
    have := h (q - p0) l[q - p0] (by simp)
    rw [show p0 + (q - p0) = q by omega] at this
    rw [this]; simp
  · rw [if_neg hq, if_neg (by omega)]

/-- **C101** A write that libpulp counts as done is done: all its bytes are stored, nothing else is
changed, and all pages have the protection they had before. -/
theorem C101_reported_write_is_done {sys : Sys} {limit} (hs : Honest sys limit) (i : Nat) (s s' : St)
    (a : Nat) (bytes : Bytes) (hl : ∀ p, limit ≤ p → s.pages p = none) (ha : a + bytes.length < 2 ^ 64)
    (h : writeInsn sys i s a bytes = (s', none)) :
    s' = { mem := s.mem.store a bytes, pages := s.pages } := by
  rcases writeInsn_cases hs i s a bytes hl ha with ⟨e, h1, -⟩ | ⟨l, h1, h2, -, h3 | ⟨h4, k, h5, h6, h7, h8⟩⟩
  · rw [h1] at h; simp at h
  · obtain ⟨k, e, -, -, -, h4⟩ := h3
    rw [h4] at h; simp at h
  · rw [h8] at h
    simp only [Prod.mk.injEq] at h
    obtain ⟨g1, g2⟩ := h
    by_cases hk : k = l.length
    · rw [← g1, hk, List.take_length, overlay_prots h2 (by simp)]
    · rw [if_neg hk] at g2
      exact absurd g2 (h7 (by omega))

/-- **C101** Whatever fails, a write is done completely or not at all, and no page gets a protection
other than its own, possibly with the permission to write added. -/
theorem C101_write_all_or_nothing {sys : Sys} {limit} (hs : Honest sys limit) (i : Nat) (s : St)
    (a : Nat) (bytes : Bytes) (hl : ∀ p, limit ≤ p → s.pages p = none) (ha : a + bytes.length < 2 ^ 64) :
    ((writeInsn sys i s a bytes).1.mem = s.mem ∨
      (writeInsn sys i s a bytes).1.mem = s.mem.store a bytes) ∧
    ∀ page, (writeInsn sys i s a bytes).1.pages page = s.pages page ∨
      ∃ p, s.pages page = some p ∧ (writeInsn sys i s a bytes).1.pages page = some { p with w := true } := by
  have hov : ∀ (l : List Prot) (k : Nat) page, Prots s.pages (a / sys.pageSize) l →
      (overlay s.pages (a / sys.pageSize) ((l.take k).map fun p => { p with w := true })) page = s.pages page ∨
      ∃ p, s.pages page = some p ∧
        (overlay s.pages (a / sys.pageSize) ((l.take k).map fun p => { p with w := true })) page =
          some { p with w := true } := by
    intro l k page h
    unfold overlay
    split
    · next hq =>
      right
      simp only [List.length_map, List.length_take] at hq
      have hlt : page - a / sys.pageSize < l.length := by omega
      refine ⟨l[page - a / sys.pageSize], ?_, ?_⟩
      · have := h (page - a / sys.pageSize) _ (List.getElem?_eq_getElem hlt)
        rwa [show a / sys.pageSize + (page - a / sys.pageSize) = page by omega] at this
      · rw [List.getElem?_map, List.getElem?_take_of_lt (by omega), List.getElem?_eq_getElem hlt]; rfl
    · left; rfl
  rcases writeInsn_cases hs i s a bytes hl ha with ⟨e, h1, -⟩ | ⟨l, h1, h2, -, h3 | ⟨h4, k, h5, h6, h7, h8⟩⟩
  · rw [h1]; exact ⟨Or.inl rfl, fun _ => Or.inl rfl⟩
  · obtain ⟨k, e, -, -, -, h4⟩ := h3
    rw [h4]
    exact ⟨Or.inl rfl, fun page => hov l k page h2⟩
  · rw [h8]
    refine ⟨Or.inr rfl, fun page => ?_⟩
    simp only
    have hb : overlay (overlay s.pages (a / sys.pageSize) (l.map fun p => { p with w := true }))
          (a / sys.pageSize) (l.take k) page = s.pages page ∨
        overlay (overlay s.pages (a / sys.pageSize) (l.map fun p => { p with w := true }))
          (a / sys.pageSize) (l.take k) page =
          overlay s.pages (a / sys.pageSize) (l.map fun p => { p with w := true }) page := by
      by_cases hq : a / sys.pageSize ≤ page ∧ page < a / sys.pageSize + (l.take k).length
      · left
        rw [overlay, if_pos hq]
        simp only [List.length_take] at hq
        rw [List.getElem?_take_of_lt (by omega), List.getElem?_eq_getElem (by omega)]
        have := h2 (page - a / sys.pageSize) _ (List.getElem?_eq_getElem (by omega))
        rw [show a / sys.pageSize + (page - a / sys.pageSize) = page by omega] at this
        exact this.symm
      · right
        rw [overlay, if_neg hq]
    rcases hb with hb | hb
    · left; exact hb
    · rw [hb]
      have := hov l l.length page h2
      rwa [List.take_length] at this

/-- **C101** A write is done if the pages from that of its first byte to that of the address behind its
last byte are mapped and nothing is refused. -/
theorem C101_possible_write_is_done {sys : Sys} {limit} (hs : Honest sys limit) (i : Nat) (s : St)
    (a : Nat) (bytes : Bytes) (hl : ∀ p, limit ≤ p → s.pages p = none) (ha : a + bytes.length < 2 ^ 64)
    (hm : ∀ page, a / sys.pageSize ≤ page → page ≤ (a + bytes.length) / sys.pageSize → s.pages page ≠ none)
    (ho : ∀ j, sys.openErr i j = none) (hd : ∀ j, sys.deny i j = none)
    (hb : ∀ j, sys.denyBack i j = none) :
    writeInsn sys i s a bytes = ({ mem := s.mem.store a bytes, pages := s.pages }, none) := by
  have hnum := numPages_eq (ps := sys.pageSize) ha
  have hle : a / sys.pageSize ≤ (a + bytes.length) / sys.pageSize := Nat.div_le_div_right (by omega)
  have key : (writeInsn sys i s a bytes).2 = none := by
    rcases writeInsn_cases hs i s a bytes hl ha with ⟨e, h1, h2⟩ | ⟨l, h1, h2, -, h3 | ⟨h4, k, h5, h6, h7, h8⟩⟩
    · exfalso
      apply h2
      refine ⟨(List.range (numPages sys.pageSize a bytes.length)).map
        fun k => (s.pages (a / sys.pageSize + k)).getD default, by simp, ?_, fun k _ => ho k⟩
      intro k p hk
      have hlt : k < numPages sys.pageSize a bytes.length := by
        rcases Nat.lt_or_ge k (numPages sys.pageSize a bytes.length) with h | h
        · exact h
        · rw [List.getElem?_eq_none (by simpa using h)] at hk; simp at hk
      rw [List.getElem?_map, List.getElem?_range hlt] at hk
      simp only [Option.map_some, Option.some.injEq] at hk
      obtain ⟨q, hq⟩ := Option.ne_none_iff_exists'.mp (hm (a / sys.pageSize + k) (by omega) (by omega))
      rw [hq] at hk ⊢
      simp at hk; rw [hk]
    · obtain ⟨k, e, -, -, h4, -⟩ := h3
      rw [hd] at h4; simp at h4
    · rw [h8]
      simp only
      split
      · rfl
      · exact hb k
  have := C101_reported_write_is_done hs i s (writeInsn sys i s a bytes).1 a bytes hl ha
    (Prod.ext rfl key)
  exact Prod.ext this key

example : writeInsn demoSys 0 demoSt 0x4ffe [0xeb, 0xf0, 0x90] =
    ({ mem := demoSt.mem.store 0x4ffe [0xeb, 0xf0, 0x90], pages := demoSt.pages }, none) := by
  refine C101_possible_write_is_done demoSys_honest 0 demoSt _ _ demoPages_limit (by decide) ?_
    (fun _ => rfl) (fun _ => rfl) (fun _ => rfl)
  intro page h1 h2
  simp [demoSys] at h1 h2
  obtain rfl | rfl : page = 4 ∨ page = 5 := by omega
  · simp [demoSt, demoPages]
  · simp [demoSt, demoPages]

/-- **C101** fails: a write whose bytes all lie in mapped pages is refused if it ends at a page boundary
and the next page is not mapped; `errno`, which nothing has set, is returned. -/
theorem C101_write_up_to_page_end_refused {sys : Sys} {limit} (hs : Honest sys limit) (i : Nat) (s : St)
    (a : Nat) (bytes : Bytes) (hl : ∀ p, limit ≤ p → s.pages p = none) (ha : a + bytes.length < 2 ^ 64)
    (hend : (a + bytes.length) % sys.pageSize = 0)
    (hnext : s.pages ((a + bytes.length) / sys.pageSize) = none) :
    (∀ page, Touches sys.pageSize a bytes.length page → page < (a + bytes.length) / sys.pageSize) ∧
    ∃ e, writeInsn sys i s a bytes = (s, some e) := by
  have hnum := numPages_eq (ps := sys.pageSize) ha
  have hle : a / sys.pageSize ≤ (a + bytes.length) / sys.pageSize := Nat.div_le_div_right (by omega)
  constructor
  · rintro page ⟨x, -, hx, rfl⟩
    have := Nat.div_add_mod (a + bytes.length) sys.pageSize
    rw [hend, Nat.add_zero] at this
    rw [Nat.div_lt_iff_lt_mul hs.1, Nat.mul_comm, this]
    exact hx
  · have hno : ∀ l : List Prot, l.length = numPages sys.pageSize a bytes.length →
        ¬ Prots s.pages (a / sys.pageSize) l := by
      intro l h1 h2
      have hk : (a + bytes.length) / sys.pageSize - a / sys.pageSize < l.length := by omega
      have := h2 _ _ (List.getElem?_eq_getElem hk)
      rw [show a / sys.pageSize + ((a + bytes.length) / sys.pageSize - a / sys.pageSize) =
        (a + bytes.length) / sys.pageSize by omega, hnext] at this
      simp at this
    rcases writeInsn_cases hs i s a bytes hl ha with ⟨e, h1, -⟩ | ⟨l, h1, h2, -⟩
    · exact ⟨e, h1⟩
    · exact absurd h2 (hno l h1)

/-- A pointer at the very end of the data is not written. -/
example : ∃ e, writeInsn demoSys 0 demoSt 0x7ff8 [1, 2, 3, 4, 5, 6, 7, 8] = (demoSt, some e) :=
  (C101_write_up_to_page_end_refused demoSys_honest 0 demoSt 0x7ff8 [1, 2, 3, 4, 5, 6, 7, 8]
    demoPages_limit (by decide) (by decide) (by decide)).2

/-- **C101** fails: if `mprotect` refuses a page that is not the first one, the pages before it stay
writable. -/
theorem C101_refused_page_leaves_others_writable {sys : Sys} {limit} (hs : Honest sys limit) (i : Nat)
    (s : St) (a : Nat) (bytes : Bytes) (hl : ∀ p, limit ≤ p → s.pages p = none)
    (ha : a + bytes.length < 2 ^ 64) (ho : ∀ j, sys.openErr i j = none)
    (hm : ∀ page, a / sys.pageSize ≤ page → page ≤ (a + bytes.length) / sys.pageSize → s.pages page ≠ none)
    (k e : Nat) (hk : a / sys.pageSize + k ≤ (a + bytes.length) / sys.pageSize)
    (hd : sys.deny i k = some e) (hd' : ∀ j, j < k → sys.deny i j = none) :
    (writeInsn sys i s a bytes).2 = some e ∧ ∀ j, j < k → ∀ p, s.pages (a / sys.pageSize + j) = some p →
      (writeInsn sys i s a bytes).1.pages (a / sys.pageSize + j) = some { p with w := true } := by
  have hnum := numPages_eq (ps := sys.pageSize) ha
  have hle : a / sys.pageSize ≤ (a + bytes.length) / sys.pageSize := Nat.div_le_div_right (by omega)
  rcases writeInsn_cases hs i s a bytes hl ha with ⟨e, h1, h2⟩ | ⟨l, h1, h2, -, h3 | ⟨h4, -⟩⟩
  · exfalso
    apply h2
    refine ⟨(List.range (numPages sys.pageSize a bytes.length)).map
      fun k => (s.pages (a / sys.pageSize + k)).getD default, by simp, ?_, fun k _ => ho k⟩
    intro k p hk
    have hlt : k < numPages sys.pageSize a bytes.length := by
      rcases Nat.lt_or_ge k (numPages sys.pageSize a bytes.length) with h | h
      · exact h
      · rw [List.getElem?_eq_none (by simpa using h)] at hk; simp at hk
    rw [List.getElem?_map, List.getElem?_range hlt] at hk
    simp only [Option.map_some, Option.some.injEq] at hk
    obtain ⟨q, hq⟩ := Option.ne_none_iff_exists'.mp (hm (a / sys.pageSize + k) (by omega) (by omega))
    rw [hq] at hk ⊢
    simp at hk; rw [hk]
  · obtain ⟨k', e', g1, g2, g3, g4⟩ := h3
    have hkk : k' = k := by
      rcases Nat.lt_trichotomy k' k with h | h | h
      · rw [hd' k' h] at g3; simp at g3
      · exact h
      · rw [g2 k h] at hd; simp at hd
    subst hkk
    rw [g3] at hd
    injection hd with hd
    rw [g4]
    refine ⟨by rw [hd], ?_⟩
    intro j hj p hp
    simp only [overlay, List.length_map, List.length_take]
    rw [if_pos (by omega), show a / sys.pageSize + j - a / sys.pageSize = j by omega,
      List.getElem?_map, List.getElem?_take_of_lt hj, List.getElem?_eq_getElem (by omega)]
    have := h2 j _ (List.getElem?_eq_getElem (by omega))
    rw [hp] at this
    injection this with this
    rw [this]; rfl
  · rw [h4 k (by omega)] at hd; simp at hd

/-- The second page of code refused with EACCES. -/
def demoDeny : Sys := { demoSys with deny := fun _ j => if j = 1 then some 13 else none }

theorem demoDeny_honest : Honest demoDeny 16 := demoSys_honest

/-- The first page of code stays writable and executable. -/
example : (writeInsn demoDeny 0 demoSt 0x4ffe [0xeb, 0xf0, 0x90]).1.pages 4 = some ⟨true, true, true⟩ := by
  refine (C101_refused_page_leaves_others_writable demoDeny_honest 0 demoSt 0x4ffe [0xeb, 0xf0, 0x90]
    demoPages_limit (by decide) (fun _ => rfl) ?_ 1 13 (by decide) rfl ?_).2 0 (by decide)
    ⟨true, false, true⟩ rfl
  · intro page h1 h2
    simp [demoDeny, demoSys] at h1 h2
    obtain rfl | rfl : page = 4 ∨ page = 5 := by omega
    · simp [demoSt, demoPages]
    · simp [demoSt, demoPages]
  · intro j hj
    simp [demoDeny]; omega

/-! ### C102 -/

/-- **C102** (partial: nothing must be refused) Requests queued by libpulp are performed, in order, and
success is reported; the queue is empty afterwards. -/
theorem C102_possible_requests_performed_partial {sys : Sys} {limit} (hs : Honest sys limit)
    (q₀ q : Queue) (rs : List Req) (s : St) (hv : ∀ r ∈ rs, Verif.InsnQueue.Spec.Req.Valid r)
    (hnum : q₀.num = 0) (hsize : q₀.size = 0) (hacc : insertAll? q₀ rs = some q)
    (hl : ∀ p, limit ≤ p → s.pages p = none)
    (hm : ∀ a bytes, Req.write a bytes ∈ rs → a + bytes.length < 2 ^ 64 ∧
      ∀ page, a / sys.pageSize ≤ page → page ≤ (a + bytes.length) / sys.pageSize → s.pages page ≠ none)
    (ho : ∀ i j, sys.openErr i j = none) (hd : ∀ i j, sys.deny i j = none)
    (hb : ∀ i j, sys.denyBack i j = none) :
    interpretFromLib sys q s =
      ({ mem := perform s.mem rs, pages := s.pages }, { q with buf := fun _ => 0, num := 0, size := 0 }, .ok) := by
  have h0 : Holds q₀ [] := ⟨hnum, hsize, by rw [hsize]; omega, by simp, trivial⟩
  have hq : Holds q rs := by simpa using Verif.InsnQueue.holds_insertAll h0 hv hacc
  have key : ∀ (rs : List Req) (i p : Nat) (s : St), (∀ r ∈ rs, Verif.InsnQueue.Spec.Req.Valid r) →
      Verif.InsnQueue.Layout q.buf p rs → p + Verif.InsnQueue.total rs = q.size →
      (∀ p, limit ≤ p → s.pages p = none) →
      (∀ a bytes, Req.write a bytes ∈ rs → a + bytes.length < 2 ^ 64 ∧
        ∀ page, a / sys.pageSize ≤ page → page ≤ (a + bytes.length) / sys.pageSize → s.pages page ≠ none) →
      runFrom sys q.buf q.size rs.length i p s = ({ mem := perform s.mem rs, pages := s.pages }, .ok) := by
    intro rs
    induction rs with
    | nil =>
      intro i p s _ _ ht _ _
      simp only [Verif.InsnQueue.total] at ht
      simp [runFrom, perform, ← ht]
    | cons r rs ih =>
      intro i p s hv hl ht hlim hm
      obtain ⟨g1, g2⟩ := hl
      simp only [Verif.InsnQueue.total] at ht
      have hfit := hq.fits
      rw [List.length_cons, runFrom_cons (hv r (by simp)) g1 (by omega)]
      have hx : exec sys i s r.insnSize (some (asked r)) =
          ({ mem := perform s.mem [r], pages := s.pages }, (r.insnSize : Int)) := by
        cases r with
        | print t => rfl
        | write a bytes =>
          have hw := hm a bytes (by simp)
          simp only [asked, exec]
          rw [C101_possible_write_is_done hs i s a bytes hlim hw.1 hw.2 (ho i) (hd i) (hb i)]
          rfl
      rw [hx]
      simp only
      rw [← Int.natCast_add, ih (i + 1) (p + r.insnSize) { mem := perform s.mem [r], pages := s.pages }
        (fun r hr => hv r (by simp [hr])) g2 (by omega) hlim (fun a b h => hm a b (by simp [h]))]
      cases r <;> rfl
  unfold interpretFromLib
  have := key rs 0 0 s hv hq.layout (by have := hq.size; omega) hl hm
  rw [hq.num]
  rw [show ((0 : Nat) : Int) = 0 from rfl] at this
  rw [this]

/-- **C102** fails: success is reported although not a single write was made.  `errno` of a failed write
is taken for the size of its instruction; if `/proc/self/maps` cannot be opened because the process has
no file descriptor left, it is EMFILE = 24, the size of an instruction that writes up to 8 bytes. -/
theorem C102_success_without_any_write {sys : Sys} (q₀ q : Queue) (rs : List Req) (s : St)
    (hv : ∀ r ∈ rs, Verif.InsnQueue.Spec.Req.Valid r) (hnum : q₀.num = 0) (hsize : q₀.size = 0)
    (hacc : insertAll? q₀ rs = some q)
    (hw : ∀ r ∈ rs, ∃ a bytes, r = Req.write a bytes ∧ 0 < bytes.length ∧ bytes.length ≤ 8)
    (ho : ∀ i j, sys.openErr i j = some EMFILE) :
    interpretFromLib sys q s = (s, { q with buf := fun _ => 0, num := 0, size := 0 }, .ok) := by
  have h0 : Holds q₀ [] := ⟨hnum, hsize, by rw [hsize]; omega, by simp, trivial⟩
  have hq : Holds q rs := by simpa using Verif.InsnQueue.holds_insertAll h0 hv hacc
  have key : ∀ (rs : List Req) (i p : Nat), (∀ r ∈ rs, Verif.InsnQueue.Spec.Req.Valid r) →
      (∀ r ∈ rs, ∃ a bytes, r = Req.write a bytes ∧ 0 < bytes.length ∧ bytes.length ≤ 8) →
      Verif.InsnQueue.Layout q.buf p rs → p + Verif.InsnQueue.total rs = q.size →
      runFrom sys q.buf q.size rs.length i p s = (s, .ok) := by
    intro rs
    induction rs with
    | nil =>
      intro i p _ _ _ ht
      simp only [Verif.InsnQueue.total] at ht
      simp [runFrom, ← ht]
    | cons r rs ih =>
      intro i p hv hw hl ht
      obtain ⟨g1, g2⟩ := hl
      simp only [Verif.InsnQueue.total] at ht
      have hfit := hq.fits
      rw [List.length_cons, runFrom_cons (hv r (by simp)) g1 (by omega)]
      obtain ⟨a, bytes, rfl, b1, b2⟩ := hw r (by simp)
      have hsz : (Req.write a bytes).insnSize = 24 := by
        simp only [Req.insnSize]
        rw [Verif.InsnQueue.alignTo_8 (by omega)]; omega
      have hx : exec sys i s (Req.write a bytes).insnSize (some (asked (Req.write a bytes))) = (s, (24 : Int)) := by
        simp only [asked, exec]
        have : writeInsn sys i s a bytes = (s, some EMFILE) := by
          apply writeInsn_error
          obtain ⟨k, hk⟩ : ∃ k, numPages sys.pageSize a bytes.length = k + 1 := by
            unfold numPages; split <;> exact ⟨_, rfl⟩
          rw [hk, getProts, getProt, ho]
        rw [this]
        rfl
      rw [hx]
      simp only
      have := ih (i + 1) (p + 24) (fun r hr => hv r (by simp [hr])) (fun r hr => hw r (by simp [hr]))
        (by rw [hsz] at g2; exact g2) (by omega)
      rw [← this]
      simp
  unfold interpretFromLib
  have := key rs 0 0 hv hw hq.layout (by have := hq.size; omega)
  rw [hq.num]
  rw [show ((0 : Nat) : Int) = 0 from rfl] at this
  rw [this]

/-- The requests made when a live patch is reverted on x86-64 (two nops at the entry of the function)
and a pointer is put back. -/
def demoReqs : List Req := [.write 0x4010 [0x66, 0x90], .write 0x6008 [1, 2, 3, 4, 5, 6, 7, 8]]

def demoQ : Queue := (insertAll? Queue.fresh demoReqs).getD Queue.fresh

theorem demoReqs_valid : ∀ r ∈ demoReqs, Verif.InsnQueue.Spec.Req.Valid r := by
  simp [demoReqs, Verif.InsnQueue.Spec.Req.Valid]

theorem demoQ_eq : insertAll? Queue.fresh demoReqs = some demoQ := rfl

example : (interpretFromLib demoSys demoQ demoSt).2.2 = .ok ∧
    (interpretFromLib demoSys demoQ demoSt).1.mem = perform demoSt.mem demoReqs := by
  rw [C102_possible_requests_performed_partial demoSys_honest Queue.fresh demoQ demoReqs demoSt
    demoReqs_valid rfl rfl demoQ_eq demoPages_limit ?_ (fun _ _ => rfl) (fun _ _ => rfl) (fun _ _ => rfl)]
  · exact ⟨rfl, rfl⟩
  · intro a bytes h
    simp only [demoReqs, List.mem_cons, Req.write.injEq, List.not_mem_nil, or_false] at h
    rcases h with ⟨rfl, rfl⟩ | ⟨rfl, rfl⟩
    · refine ⟨by decide, ?_⟩
      intro page h1 h2
      simp [demoSys] at h1 h2
      obtain rfl : page = 4 := by omega
      simp [demoSt, demoPages]
    · refine ⟨by decide, ?_⟩
      intro page h1 h2
      simp [demoSys] at h1 h2
      obtain rfl : page = 6 := by omega
      simp [demoSt, demoPages]

example : (interpretFromLib { demoSys with openErr := fun _ _ => some EMFILE } demoQ demoSt).2.2 = .ok ∧
    (interpretFromLib { demoSys with openErr := fun _ _ => some EMFILE } demoQ demoSt).1.mem 0x4010 = 0 ∧
    perform demoSt.mem demoReqs 0x4010 = 0x66 := by
  rw [C102_success_without_any_write Queue.fresh demoQ demoReqs demoSt demoReqs_valid rfl rfl demoQ_eq
    (by intro r hr
        simp only [demoReqs, List.mem_cons, List.not_mem_nil, or_false] at hr
        rcases hr with rfl | rfl
        · exact ⟨_, _, rfl, by decide, by decide⟩
        · exact ⟨_, _, rfl, by decide, by decide⟩) (fun _ _ => rfl)]
  exact ⟨rfl, rfl, by decide⟩

/-- **C102** (partial: a single write) The report on a queue with one write can only be wrong in the way
of `C102_success_without_any_write`: if it says success, the write was made or its `errno` is the size of
its instruction. -/
theorem C102_single_write_report_partial {sys : Sys} {limit} (hs : Honest sys limit) (q₀ q : Queue)
    (a : Nat) (bytes : Bytes) (s : St) (hv : Verif.InsnQueue.Spec.Req.Valid (.write a bytes))
    (hnum : q₀.num = 0) (hsize : q₀.size = 0) (hacc : insertAll? q₀ [.write a bytes] = some q)
    (hl : ∀ p, limit ≤ p → s.pages p = none) (ha : a + bytes.length < 2 ^ 64)
    (hok : (interpretFromLib sys q s).2.2 = .ok) :
    (interpretFromLib sys q s).1 = { mem := s.mem.store a bytes, pages := s.pages } ∨
      ∃ e, (writeInsn sys 0 s a bytes).2 = some e ∧ e = room (.write a bytes) := by
  have h0 : Holds q₀ [] := ⟨hnum, hsize, by rw [hsize]; omega, by simp, trivial⟩
  have hq : Holds q [.write a bytes] := by
    have := Verif.InsnQueue.holds_insertAll h0 (rs' := [.write a bytes]) (by simpa using hv) hacc
    simpa using this
  have hsz := hq.size
  simp only [Verif.InsnQueue.total, Nat.add_zero] at hsz
  have hroom : (Req.write a bytes).insnSize = room (.write a bytes) := by
    obtain ⟨_, h⟩ := hv
    simp only [Req.insnSize, room]
    rw [Verif.InsnQueue.alignTo_8 (by omega)]; omega
  unfold interpretFromLib at hok ⊢
  have hn : q.num = 0 + 1 := hq.num
  rw [hn] at hok ⊢
  have hrun := runFrom_cons (sys := sys) (size := q.size) (left := 0) (i := 0) (p := 0) (s := s) hv
    hq.layout.1 (by have := hq.fits; omega)
  rw [show ((0 : Nat) : Int) = 0 from rfl] at hrun
  rw [hrun] at hok ⊢
  simp only [runFrom] at hok ⊢
  rcases hw : writeInsn sys 0 s a bytes with ⟨s', _ | e⟩
  · left
    have hx : exec sys 0 s (Req.write a bytes).insnSize (some (asked (.write a bytes))) =
        (s', ((Req.write a bytes).insnSize : Int)) := by simp only [asked, exec, hw]
    rw [hx]
    exact C101_reported_write_is_done hs 0 s s' a bytes hl ha hw
  · right
    have hx : exec sys 0 s (Req.write a bytes).insnSize (some (asked (.write a bytes))) =
        (s', (e : Int)) := by simp only [asked, exec, hw]
    rw [hx] at hok
    refine ⟨e, rfl, ?_⟩
    simp only at hok
    split at hok
    · omega
    · simp at hok

/-! ### Further concrete cases -/

theorem demo_write_done : writeInsn demoSys 0 demoSt 0x6008 [1, 2, 3] =
    ({ mem := demoSt.mem.store 0x6008 [1, 2, 3], pages := demoSt.pages }, none) := by
  refine C101_possible_write_is_done demoSys_honest 0 demoSt _ _ demoPages_limit (by decide) ?_
    (fun _ => rfl) (fun _ => rfl) (fun _ => rfl)
  intro page h1 h2
  simp [demoSys] at h1 h2
  have : page = 6 := by omega
  subst this
  decide

example := C101_reported_write_is_done demoSys_honest 0 demoSt _ 0x6008 [1, 2, 3] demoPages_limit (by decide) demo_write_done
/-- The second page may not be changed. -/
example := C101_write_all_or_nothing demoDeny_honest 0 demoSt 0x4ffe [0xeb, 0xf0, 0x90] demoPages_limit (by decide)

/-- A queue with one write of two bytes. -/
example : ∃ q, insertAll? Queue.fresh [.write 0x4010 [0x66, 0x90]] = some q ∧
    ((interpretFromLib demoSys q demoSt).1 = { mem := demoSt.mem.store 0x4010 [0x66, 0x90], pages := demoSt.pages } ∨
      ∃ e, (writeInsn demoSys 0 demoSt 0x4010 [0x66, 0x90]).2 = some e ∧ e = room (.write 0x4010 [0x66, 0x90])) := by
  cases hq : insertAll? Queue.fresh [.write 0x4010 [0x66, 0x90]] with
  | none => exact absurd hq (by decide +kernel)
  | some q =>
    refine ⟨q, rfl, C102_single_write_report_partial demoSys_honest Queue.fresh q 0x4010 [0x66, 0x90] demoSt (by unfold Verif.InsnQueue.Spec.Req.Valid; decide) rfl rfl hq demoPages_limit (by decide) ?_⟩
    have : (insertAll? Queue.fresh [.write 0x4010 [0x66, 0x90]]).map (fun q => (interpretFromLib demoSys q demoSt).2.2) = some .ok := by decide +kernel
    rw [hq] at this
    exact Option.some.inj this

end Verif.SelfWrite
