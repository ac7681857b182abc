import Verif.MiniElf.Lemmas
import Verif.Metadata.Props

/-!
C89–C91: what gdb makes a process load.
-/

namespace Verif.MiniElf

open Spec
open Verif.Metadata (bufLen extract packApply packRevert)

/-! ### C89: the section is read as it is -/

/-- Of any ELF file the first section of that name is read, with all its bytes and nothing else. -/
theorem C89_section_partial {f : Bytes} {secs : List Sec} {stroff strsize : Nat} (h : IsElf f secs stroff strsize) (hs : strsize ≤ 0x500)
    {name : Str} (hn : 0 ∉ name) {s : Sec} (hf : First secs name s) (h0 : 0 < s.size) {destSize : Nat} (hd : s.size ≤ destSize)
    (hin : s.offset + s.size ≤ f.length) :
    getSection destSize name (some f) = .ok (.ok ((f.drop s.offset).take s.size)) := by
  obtain ⟨shoff, strndx, h1, -⟩ := isElf_parse h
  obtain ⟨pos, h2⟩ := loadStrtbl_elf h hs h1 64
  obtain ⟨b, pos', h3, h4, h5⟩ := (byName_elf h h1 pos hn).1 s hf
  have hlen : ((f.drop s.offset).take s.size).length = s.size := by rw [List.length_take, List.length_drop]; omega
  have hoff : s.offset < 2 ^ 63 := by have := h.length; omega
  unfold getSection
  simp only [h1, h2, h3, loadSection, h4, h5, seek, if_pos hoff, hlen]
  rw [if_neg (by omega), if_neg (by simp)]
  simp only [hlen]
  rw [if_neg (by omega)]

/-- If there is no such section, or it does not fit, is empty or not within the file, the error is reported. -/
theorem C89_reported_partial {f : Bytes} {secs : List Sec} {stroff strsize : Nat} (h : IsElf f secs stroff strsize) (hs : strsize ≤ 0x500)
    {name : Str} (hn : 0 ∉ name) {destSize : Nat} (hd : (∀ s ∈ secs, s.name ≠ name) ∨
      ∃ s, First secs name s ∧ s.offset < 2 ^ 63 ∧ (s.size = 0 ∨ destSize < s.size ∨ f.length < s.offset + s.size)) :
    getSection destSize name (some f) = .ok (.error EINVAL) := by
  obtain ⟨shoff, strndx, h1, -⟩ := isElf_parse h
  obtain ⟨pos, h2⟩ := loadStrtbl_elf h hs h1 64
  unfold getSection
  simp only [h1, h2]
  rcases hd with hd | ⟨s, hf, hoff, hd⟩
  · obtain ⟨pos', h3⟩ := (byName_elf h h1 pos hn).2 hd
    simp only [h3]
  · obtain ⟨b, pos', h3, h4, h5⟩ := (byName_elf h h1 pos hn).1 s hf
    simp only [h3, loadSection, h4, h5, seek, if_pos hoff]
    have hlen : ((f.drop s.offset).take s.size).length = min s.size (f.length - s.offset) := by rw [List.length_take, List.length_drop]
    by_cases hc : destSize < s.size
    · rw [if_pos hc]
    · rw [if_neg hc]
      by_cases hz : s.size = 0
      · simp [hz]
      · rw [if_pos (by rw [hlen]; omega)]

/-- A container as the packer makes it: gdb loads the same metadata as the trigger tool writes to the process, followed by
zeros; so the process understands it as the patch described, to apply or to revert. -/
theorem C89_reaches_process_partial {f : Bytes} {secs : List Sec} {stroff strsize : Nat} (h : IsElf f secs stroff strsize) (hs : strsize ≤ 0x500)
    {s t : Sec} (hf : First secs ".ulp".toUTF8.toList s) (ht : First secs ".ulp.rev".toUTF8.toList t) {p : Metadata.Patch} (hg : Metadata.Spec.Good p)
    (hsec : s.offset + s.size ≤ f.length ∧ (f.drop s.offset).take s.size = packApply p)
    (htec : t.offset + t.size ≤ f.length ∧ (f.drop t.offset).take t.size = packRevert p)
    {path : Str} (h0 : 0 ∉ path) (hne : path ≠ []) {out out' : Bytes} (hx : extract (packApply p) path = .ok out)
    (hx' : extract (packRevert p) path = .ok out') (rest : Bytes → Nat) (c0 : Bytes) :
    (∃ buf q st, gdbApply (some f) path ENONE rest = .ok ⟨rest buf, ENONE, some buf⟩ ∧ buf = out ++ List.replicate (bufLen - out.length) 0 ∧
      Metadata.parse (Metadata.mem buf) c0 = .ok (q, st) ∧ Metadata.Spec.IsApply q p path) ∧
    (∃ buf q st, gdbRevert (some f) path ENONE rest = .ok ⟨rest buf, ENONE, some buf⟩ ∧ buf = out' ++ List.replicate (bufLen - out'.length) 0 ∧
      Metadata.parse (Metadata.mem buf) c0 = .ok (q, st) ∧ Metadata.Spec.IsRevert q p path) := by
  have e1 : ".ulp".toUTF8.toList = secUlp := by decide +kernel
  have e2 : ".ulp.rev".toUTF8.toList = secRev := by decide +kernel
  rw [e1] at hf
  rw [e2] at ht
  obtain ⟨shoff, strndx, h1, -⟩ := isElf_parse h
  have hst : stateAfter (some f) ENONE = ENONE := by simp [stateAfter, h1]
  have key : ∀ (name : Str) (hn : 0 ∉ name) (s : Sec), First secs name s → s.offset + s.size ≤ f.length → ∀ data out,
      (f.drop s.offset).take s.size = data → extract data path = .ok out →
      gdbRun name (some f) path ENONE rest = .ok ⟨rest (out ++ List.replicate (bufLen - out.length) 0), ENONE, some (out ++ List.replicate (bufLen - out.length) 0)⟩ := by
    intro name hn s hf hin data out hdata hx
    have hlen : data.length = s.size := by rw [← hdata, List.length_take, List.length_drop]; omega
    obtain ⟨hout, hpm, h33, hl, hb⟩ := Metadata.extract_ok hx
    have := C89_section_partial h hs hn hf (by omega) (destSize := bufLen) (by omega) hin
    unfold gdbRun
    rw [this, hdata]
    simp only [Metadata.C17_gdb_same_metadata hx, hst]
    rw [if_neg (by simp)]
  refine ⟨?_, ?_⟩
  · obtain ⟨q, st, h6, h7, -⟩ := Metadata.C13_roundtrip hg h0 hne hx (List.replicate (bufLen - out.length) 0) c0
    exact ⟨_, q, st, key _ (by decide) s hf hsec.1 _ _ hsec.2 hx, rfl, h6, h7⟩
  · obtain ⟨q, st, h6, h7, -⟩ := Metadata.C14_revert_roundtrip hg h0 hne hx' (List.replicate (bufLen - out'.length) 0) c0
    exact ⟨_, q, st, key _ (by decide) t ht htec.1 _ _ htec.2 hx', rfl, h6, h7⟩

/-! ### C90: memory -/

/-- If the section names need more than 1280 bytes, gdb makes the process compare with memory that was never written:
the table is not loaded, and nobody looks. -/
theorem C90_long_strtbl {f : Bytes} {secs : List Sec} {stroff strsize : Nat} (h : IsElf f secs stroff strsize) (hs : 0x500 < strsize)
    (destSize : Nat) (name : Str) : getSection destSize name (some f) = .ub := by
  obtain ⟨shoff, strndx, h1, h2, h3, ⟨s, h4, h5, h6⟩, h7⟩ := isElf_parse h
  obtain ⟨p, -, n2, n3, -⟩ := h7 _ _ h4
  have hlt := lt_of_getElem? h4
  have hst : loadStrtbl f ⟨shoff, 64, secs.length, strndx⟩ 64 = .ok (List.replicate strtblMax none, shoff + 64 * (strndx + 1)) := by
    unfold loadStrtbl getShdr
    simp only [seek, if_pos h2]
    rw [getShdrLoop_64 (by simp) hlt h3]
    simp only [hdr_size (s := s) (show shoff + 64 * strndx + 64 ≤ f.length by omega) n3]
    rw [if_pos (by unfold strtblMax; omega)]
  have hcmp : ∀ p, strcmpAt (List.replicate strtblMax none) name p = .ub := by
    intro p
    have hg : (List.replicate strtblMax (none : Option UInt8))[p]? = some none ∨ (List.replicate strtblMax (none : Option UInt8))[p]? = none := by
      rw [List.getElem?_replicate]
      split
      · exact Or.inl rfl
      · exact Or.inr rfl
    cases name with
    | nil => rcases hg with hg | hg <;> simp [strcmpAt, hg]
    | cons c n => rcases hg with hg | hg <;> simp [strcmpAt, hg]
  have hby : ∀ pos, byName f ⟨shoff, 64, secs.length, strndx⟩ name (List.replicate strtblMax none) pos = .ub := by
    intro pos
    unfold byName
    simp only [seek, if_pos h2]
    cases hk : secs.length with
    | zero => omega
    | succ k =>
      simp only [byNameLoop]
      rw [nextShdr_64 (by omega) (by simp)]
      simp only [field_hdr (show shoff + 64 ≤ f.length by omega) (show 0 + 4 ≤ 64 by omega), hcmp]
  unfold getSection
  simp only [h1, hst, hby]

/-- A header larger than 64 bytes overflows a variable of the code: the assertion does not stop it. -/
theorem C90_large_headers {f : Bytes} {h : Ehdr} (hp : parseEhdr f = some h) (he : 64 < h.shentsize) (hn : 0 < h.shnum) (ho : h.shoff < 2 ^ 63)
    (hl : h.shoff + h.shentsize ≤ f.length) (destSize : Nat) (name : Str) : getSection destSize name (some f) = .ub := by
  have : nextShdr f h.shentsize h.shoff (List.replicate 64 none) = .ub := by
    unfold nextShdr
    have : ((f.drop h.shoff).take h.shentsize).length = h.shentsize := by rw [List.length_take, List.length_drop]; omega
    simp only [this]
    rw [if_pos he]
  unfold getSection
  simp only [hp, loadStrtbl, getShdr, seek, if_pos ho]
  cases hk : h.shnum with
  | zero => omega
  | succ k => simp only [getShdrLoop, this]

/-- A name outside of the 1280 bytes is read from there. -/
theorem C90_name_outside {f : Bytes} {h : Ehdr} (hp : parseEhdr f = some h) (he : h.shentsize = 64) (hn : 0 < h.shnum) (ho : h.shoff < 2 ^ 63)
    (hl : h.shoff + 64 ≤ f.length) (hname : 0x500 ≤ num f h.shoff 4) (destSize : Nat) (name : Str) (hok : ∃ t pos, loadStrtbl f h 64 = .ok (t, pos)) :
    getSection destSize name (some f) = .ub := by
  obtain ⟨t, pos, hok⟩ := hok
  have ht : t.length ≤ strtblMax := by
    unfold loadStrtbl at hok
    split at hok
    · exact absurd hok (by simp)
    · injection hok with hok; injection hok with h1 h2; rw [← h1]; simp
    · split at hok
      · exact absurd hok (by simp)
      · split at hok
        · injection hok with hok; injection hok with h1 h2; rw [← h1]; simp
        · rename_i hsz
          split at hok
          · exact absurd hok (by simp)
          · injection hok with hok; injection hok with h1 h2; rw [← h1]
            simp only [List.length_append, List.length_map, List.length_replicate, List.length_take]
            omega
  have hcmp : strcmpAt t name (num f h.shoff 4) = .ub := by
    have hg : t[num f h.shoff 4]? = none := List.getElem?_eq_none (by unfold strtblMax at ht; omega)
    cases name <;> simp [strcmpAt, hg]
  have hby : byName f h name t pos = .ub := by
    unfold byName
    simp only [seek, if_pos ho, he]
    cases hk : h.shnum with
    | zero => omega
    | succ k =>
      simp only [byNameLoop]
      rw [nextShdr_64 hl (by simp)]
      simp only [field_hdr hl (show 0 + 4 ≤ 64 by omega), Nat.add_zero, hcmp]
  unfold getSection
  simp only [hp, hok, hby]

/-- A section of metadata of less than 33 bytes makes it move a negative number of bytes. -/
theorem C90_short_section {name : Str} {file : Option Bytes} {data : Bytes} (h : getSection bufLen name file = .ok (.ok data)) (hl : data.length < 33)
    {path : Str} (hp : path.length < 4096) (state : Err) (rest : Bytes → Nat) : gdbRun name file path state rest = .ub := by
  have hb : bufLen = 512 * 1024 := by decide +kernel
  have : Metadata.injectPath (data ++ List.replicate (bufLen - data.length) 0) path data.length = .ub := by
    unfold Metadata.injectPath
    simp only
    rw [if_neg (by rw [hb]; omega), if_pos hl]
  unfold gdbRun
  simp only [h, this]

/-- What is needed of a file for its sections to be looked up safely: headers of 64 bytes within the file, a string table
of at most 1280 bytes within the file whose last byte is 0, and names that start in it. -/
structure Sane (f : Bytes) (h : Ehdr) (stroff strsize : Nat) : Prop where
  parse : parseEhdr f = some h
  entsize : h.shentsize = 64
  off : h.shoff < 2 ^ 63
  table : h.shoff + 64 * h.shnum ≤ f.length
  strndx : h.shstrndx < h.shnum
  at_ : num f (h.shoff + 64 * h.shstrndx + 24) 8 = stroff
  size : num f (h.shoff + 64 * h.shstrndx + 32) 8 = strsize
  small : 0 < strsize ∧ strsize ≤ 0x500
  length : f.length < 2 ^ 63
  inside : stroff + strsize ≤ f.length
  term : f[stroff + strsize - 1]? = some 0
  names : ∀ i, i < h.shnum → num f (h.shoff + 64 * i) 4 < strsize

theorem byNameLoop_safe {f : Bytes} {name : Str} {strtbl : Buf} {size : Nat} (hc : ∀ p, p < size → strcmpAt strtbl name p ≠ .ub) (k : Nat) {pos : Nat} {b : Buf}
    (hb : b.length = 64) (hl : pos + 64 * k ≤ f.length) (h : ∀ i, i < k → num f (pos + 64 * i) 4 < size) :
    ∃ r pos', byNameLoop f 64 name strtbl k pos b = .ok (r, pos') ∧ ∀ x, r = some x → ∃ q, q + 64 ≤ f.length ∧ x = hdr f q := by
  induction k generalizing pos b with
  | zero => exact ⟨none, pos, rfl, by simp⟩
  | succ k ih =>
    simp only [byNameLoop]
    rw [nextShdr_64 (by omega) hb]
    simp only [field_hdr (show pos + 64 ≤ f.length by omega) (show 0 + 4 ≤ 64 by omega)]
    have h0 := hc _ (h 0 (by omega))
    rw [show pos + 0 = pos + 64 * 0 by omega]
    cases hcmp : strcmpAt strtbl name (num f (pos + 64 * 0) 4) with
    | ub => exact absurd hcmp h0
    | ok v =>
      cases v with
      | true => exact ⟨_, _, rfl, fun x hx => ⟨pos, by omega, (Option.some.inj hx).symm⟩⟩
      | false =>
        exact ih (hdr_length (by omega)) (by omega) (fun i hi => by
          have := h (i + 1) (by omega)
          rwa [show pos + 64 * (i + 1) = pos + 64 + 64 * i by omega] at this)

/-- Then nothing is accessed out of bounds, whatever the other contents. -/
theorem C90_safe_partial {f : Bytes} {h : Ehdr} {stroff strsize : Nat} (hs : Sane f h stroff strsize) {name : Str} (hn : 0 ∉ name) (destSize : Nat) :
    getSection destSize name (some f) ≠ .ub := by
  have hlt : h.shoff + 64 * h.shstrndx + 64 ≤ f.length := by have := hs.table; have := hs.strndx; omega
  have hso : stroff < 2 ^ 63 := by have := hs.inside; have := hs.length; omega
  have hload : loadStrtbl f h 64 = .ok (tbl f stroff strsize, stroff + ((f.drop stroff).take strsize).length) := by
    unfold loadStrtbl getShdr
    simp only [seek, if_pos hs.off, hs.entsize]
    rw [getShdrLoop_64 (by simp) hs.strndx hs.table]
    simp only [field_hdr hlt (show 32 + 8 ≤ 64 by omega), field_hdr hlt (show 24 + 8 ≤ 64 by omega)]
    rw [hs.at_, hs.size, if_neg (by have := hs.small; unfold strtblMax; omega), if_pos hso]
    rfl
  have hsm := hs.small
  have hcmp : ∀ p, p < strsize → strcmpAt (tbl f stroff strsize) name p ≠ .ub := by
    intro p hp
    refine strcmpAt_safe name (q := strsize - 1) (by omega) ?_ ?_ hn
    · rw [tbl_get hs.inside (by omega), show stroff + (strsize - 1) = stroff + strsize - 1 by omega, hs.term]
    · intro i hi
      have := hs.inside
      exact ⟨f[stroff + i], by rw [tbl_get hs.inside (by omega), List.getElem?_eq_getElem (by omega)]⟩
  obtain ⟨r, pos, hr, hx⟩ := byNameLoop_safe hcmp h.shnum (b := List.replicate 64 none) (by simp) hs.table hs.names
  unfold getSection
  simp only [hs.parse, hload, byName, seek, if_pos hs.off, hs.entsize, hr]
  cases r with
  | none => simp
  | some x =>
    obtain ⟨q, hq, rfl⟩ := hx x rfl
    simp only [loadSection, field_hdr hq (show 32 + 8 ≤ 64 by omega), field_hdr hq (show 24 + 8 ≤ 64 by omega)]
    split
    · rename_i heq
      split at heq
      · simp at heq
      · split at heq <;> simp at heq
    · simp
    · split <;> simp

/-! ### C91: the error state -/

/-- A file with section headers of another size than 64 bytes disables live patching in the process for good: nothing is
loaded by this call nor by any later one. -/
theorem C91_bad_file_disables {f : Bytes} {h : Ehdr} (hp : parseEhdr f = some h) (he : h.shentsize ≠ 64) {name name' : Str} {path path' : Str} {state : Err}
    {rest rest' : Bytes → Nat} {o o' : Out} (ho : gdbRun name (some f) path state rest = .ok o) (file : Option Bytes)
    (ho' : gdbRun name' file path' o.state rest' = .ok o') : o.state = EUNKNOWN ∧ o.loaded = none ∧ o'.loaded = none ∧ o'.ret ≠ 0 ∧ o'.state = EUNKNOWN := by
  have hst : stateAfter (some f) state = EUNKNOWN := by simp [stateAfter, hp, he]
  have h1 : o.state = EUNKNOWN ∧ o.loaded = none := by
    unfold gdbRun at ho
    rw [hst] at ho
    split at ho
    · exact absurd ho (by simp)
    · injection ho with ho; subst ho; exact ⟨rfl, rfl⟩
    · split at ho
      · exact absurd ho (by simp)
      · injection ho with ho; subst ho; exact ⟨rfl, rfl⟩
      · rw [if_pos (by decide)] at ho
        injection ho with ho; subst ho; exact ⟨rfl, rfl⟩
  have hst' : stateAfter file EUNKNOWN = EUNKNOWN := by
    unfold stateAfter
    split
    · rfl
    · split <;> rfl
  have hsec : ∀ e, getSection bufLen name' file = .ok (.error e) → e ≠ 0 := by
    intro e h
    unfold getSection at h
    repeat' split at h
    all_goals first
      | (simp at h; done)
      | (simp only [Res.ok.injEq, Except.error.injEq] at h; subst h; decide)
  refine ⟨h1.1, h1.2, ?_⟩
  rw [h1.1] at ho'
  unfold gdbRun at ho'
  rw [hst'] at ho'
  split at ho'
  · exact absurd ho' (by simp)
  · rename_i e hs
    injection ho' with ho'; subst ho'; exact ⟨rfl, hsec _ hs, rfl⟩
  · split at ho'
    · exact absurd ho' (by simp)
    · injection ho' with ho'; subst ho'; exact ⟨rfl, by simp only; decide, rfl⟩
    · rw [if_pos (by decide)] at ho'
      injection ho' with ho'; subst ho'; exact ⟨rfl, by simp only; decide, rfl⟩

/-- With a file that cannot be opened, is no ELF file, or has headers of 64 bytes, the error state stays as it was. -/
theorem C91_state_kept_partial {file : Option Bytes} (hf : ∀ f h, file = some f → parseEhdr f = some h → h.shentsize = 64) {name path : Str} {state : Err}
    {rest : Bytes → Nat} {o : Out} (ho : gdbRun name file path state rest = .ok o) : o.state = state := by
  have hst : stateAfter file state = state := by
    unfold stateAfter
    split
    · rfl
    · rename_i h heq
      cases file with
      | none => simp at heq
      | some f => rw [if_pos (hf f h rfl (by simpa using heq))]
  unfold gdbRun at ho
  rw [hst] at ho
  split at ho
  · exact absurd ho (by simp)
  · injection ho with ho; subst ho; rfl
  · split at ho
    · exact absurd ho (by simp)
    · injection ho with ho; subst ho; rfl
    · split at ho
      · injection ho with ho; subst ho; rfl
      · rename_i hne
        injection ho with ho; subst ho
        exact (Classical.not_not.mp hne).symm

/-- In error state nothing is loaded. -/
theorem C91_error_state_blocks {state : Err} (hs : state ≠ ENONE) {name path : Str} {file : Option Bytes} {rest : Bytes → Nat} {o : Out}
    (ho : gdbRun name file path state rest = .ok o) : o.loaded = none := by
  have hst : stateAfter file state ≠ ENONE := by
    unfold stateAfter
    split
    · exact hs
    · split
      · exact hs
      · decide
  unfold gdbRun at ho
  split at ho
  · exact absurd ho (by simp)
  · injection ho with ho; subst ho; rfl
  · split at ho
    · exact absurd ho (by simp)
    · injection ho with ho; subst ho; rfl
    · rw [if_pos hst] at ho
      injection ho with ho; subst ho; rfl

/-! ### Examples -/

/-- A section header: name, offset, size. -/
def demoHdr (name offset size : Nat) : Bytes := le 4 name ++ List.replicate 20 0 ++ le 8 offset ++ le 8 size ++ List.replicate 24 0

def demoUlp : Bytes := packApply Metadata.demoPatch
def demoRev : Bytes := packRevert Metadata.demoPatch

def demoNames : Bytes := [0] ++ ".shstrtab".toUTF8.toList ++ [0] ++ ".ulp".toUTF8.toList ++ [0] ++ ".ulp.rev".toUTF8.toList ++ [0]

def demoEhdr (entsize : Nat) : Bytes :=
  [0x7f, 0x45, 0x4c, 0x46] ++ List.replicate 36 0 ++ le 8 64 ++ List.replicate 10 0 ++ le 2 entsize ++ le 2 4 ++ le 2 1

/-- A container: header, section headers, string table, and two sections of metadata. -/
def demoFile : Bytes :=
  demoEhdr 64 ++ demoHdr 0 0 0 ++ demoHdr 1 320 25 ++ demoHdr 11 345 demoUlp.length ++ demoHdr 16 (345 + demoUlp.length) demoRev.length ++
    demoNames ++ demoUlp ++ demoRev

def demoSecs : List Sec :=
  [⟨[], 0, 0⟩, ⟨".shstrtab".toUTF8.toList, 320, 25⟩, ⟨".ulp".toUTF8.toList, 345, demoUlp.length⟩, ⟨".ulp.rev".toUTF8.toList, 345 + demoUlp.length, demoRev.length⟩]

instance (f : Bytes) (off n v : Nat) : Decidable (Num f off n v) := inferInstanceAs (Decidable (_ ∧ _))

theorem demo_elf : IsElf demoFile demoSecs 320 25 where
  magic := by decide +kernel
  length := by decide +kernel
  header := by
    refine ⟨64, 1, by decide +kernel, by decide +kernel, by decide +kernel, by decide +kernel, by decide +kernel, ⟨_, rfl, rfl, rfl⟩, ?_⟩
    intro i s h
    match i with
    | 0 => obtain rfl := Option.some.inj h; exact ⟨0, by decide +kernel, by decide +kernel, by decide +kernel, by decide +kernel, by decide +kernel, by decide +kernel⟩
    | 1 => obtain rfl := Option.some.inj h; exact ⟨1, by decide +kernel, by decide +kernel, by decide +kernel, by decide +kernel, by decide +kernel, by decide +kernel⟩
    | 2 => obtain rfl := Option.some.inj h; exact ⟨11, by decide +kernel, by decide +kernel, by decide +kernel, by decide +kernel, by decide +kernel, by decide +kernel⟩
    | 3 => obtain rfl := Option.some.inj h; exact ⟨16, by decide +kernel, by decide +kernel, by decide +kernel, by decide +kernel, by decide +kernel, by decide +kernel⟩
    | n + 4 => simp [demoSecs] at h
  strtab := by decide +kernel

theorem demo_first : First demoSecs ".ulp".toUTF8.toList ⟨".ulp".toUTF8.toList, 345, demoUlp.length⟩ :=
  ⟨demoSecs.take 2, demoSecs.drop 3, by rfl, rfl, by decide +kernel⟩

theorem demo_first_rev : First demoSecs ".ulp.rev".toUTF8.toList ⟨".ulp.rev".toUTF8.toList, 345 + demoUlp.length, demoRev.length⟩ :=
  ⟨demoSecs.take 3, [], by rfl, rfl, by decide +kernel⟩

example : getSection bufLen ".ulp".toUTF8.toList (some demoFile) = .ok (.ok demoUlp) :=
  (C89_section_partial demo_elf (by decide) (by decide +kernel) demo_first (by decide +kernel) (by decide +kernel) (by decide +kernel)).trans
    (congrArg (fun x => Res.ok (Except.ok x)) (by decide +kernel))

example : getSection bufLen ".ulp.x".toUTF8.toList (some demoFile) = .ok (.error EINVAL) :=
  C89_reported_partial demo_elf (by decide) (by decide +kernel) (Or.inl (by decide +kernel))

example : getSection 10 ".ulp".toUTF8.toList (some demoFile) = .ok (.error EINVAL) :=
  C89_reported_partial demo_elf (by decide) (by decide +kernel) (Or.inr ⟨_, demo_first, by decide, Or.inr (Or.inl (by decide +kernel))⟩)

example : ∃ buf, gdbApply (some demoFile) [47, 112] ENONE (fun _ => 0) = .ok ⟨0, ENONE, some buf⟩ := by
  obtain ⟨out, h⟩ := Metadata.C13_extract_succeeds Metadata.demoPatch_good (path := [47, 112]) (by decide) (by decide +kernel)
  obtain ⟨out', h'⟩ : ∃ out', extract (packRevert Metadata.demoPatch) [47, 112] = .ok out' := ⟨_, by rfl⟩
  obtain ⟨⟨buf, _, _, h1, -⟩, -⟩ := C89_reaches_process_partial demo_elf (by decide) demo_first demo_first_rev Metadata.demoPatch_good
    ⟨by decide +kernel, by decide +kernel⟩ ⟨by decide +kernel, by decide +kernel⟩ (path := [47, 112]) (by decide) (by decide) h h' (fun _ => 0) []
  exact ⟨buf, h1⟩

/-- A file with 1281 bytes of names. -/
def demoLong : Bytes := demoEhdr 64 ++ demoHdr 0 0 0 ++ demoHdr 0 320 1281 ++ demoHdr 0 0 0 ++ demoHdr 0 0 0 ++ List.replicate 1281 0

theorem demoLong_elf : IsElf demoLong [⟨[], 0, 0⟩, ⟨[], 320, 1281⟩, ⟨[], 0, 0⟩, ⟨[], 0, 0⟩] 320 1281 where
  magic := by decide +kernel
  length := by decide +kernel
  header := by
    refine ⟨64, 1, by decide +kernel, by decide +kernel, by decide +kernel, by decide +kernel, by decide +kernel, ⟨_, rfl, rfl, rfl⟩, ?_⟩
    intro i s h
    match i with
    | 0 => obtain rfl := Option.some.inj h; exact ⟨0, by decide +kernel, by decide +kernel, by decide +kernel, by decide +kernel, by decide +kernel, by decide +kernel⟩
    | 1 => obtain rfl := Option.some.inj h; exact ⟨0, by decide +kernel, by decide +kernel, by decide +kernel, by decide +kernel, by decide +kernel, by decide +kernel⟩
    | 2 => obtain rfl := Option.some.inj h; exact ⟨0, by decide +kernel, by decide +kernel, by decide +kernel, by decide +kernel, by decide +kernel, by decide +kernel⟩
    | 3 => obtain rfl := Option.some.inj h; exact ⟨0, by decide +kernel, by decide +kernel, by decide +kernel, by decide +kernel, by decide +kernel, by decide +kernel⟩
    | n + 4 => simp at h
  strtab := by decide +kernel

example : getSection bufLen secUlp (some demoLong) = .ub := C90_long_strtbl demoLong_elf (by decide) _ _

example : getSection bufLen secUlp (some (demoEhdr 65 ++ demoHdr 0 0 0 ++ demoHdr 0 0 0)) = .ub :=
  C90_large_headers (h := ⟨64, 65, 4, 1⟩) (by decide +kernel) (by decide) (by decide) (by decide) (by decide +kernel) _ _

example : getSection bufLen secUlp (some (demoEhdr 64 ++ demoHdr 0x500 0 0 ++ demoHdr 0 0 0)) = .ub :=
  C90_name_outside (h := ⟨64, 64, 4, 1⟩) (by decide +kernel) rfl (by decide) (by decide) (by decide +kernel) (by decide +kernel) _ _
    ⟨_, _, by rfl⟩

deriving instance DecidableEq for Except

/-- A container whose `.ulp` has five bytes. -/
def demoShort : Bytes := demoEhdr 64 ++ demoHdr 0 0 0 ++ demoHdr 1 320 25 ++ demoHdr 11 345 5 ++ demoHdr 0 0 0 ++ demoNames ++ [1, 2, 3, 4, 5]

example : gdbApply (some demoShort) [47, 112] ENONE (fun _ => 0) = .ub :=
  C90_short_section (data := [1, 2, 3, 4, 5]) (by decide +kernel) (by decide) (by decide) _ _

theorem demo_sane : Sane demoFile ⟨64, 64, 4, 1⟩ 320 25 where
  parse := by decide +kernel
  entsize := rfl
  off := by decide
  table := by decide +kernel
  strndx := by decide
  at_ := by decide +kernel
  size := by decide +kernel
  small := by decide
  length := by decide +kernel
  inside := by decide +kernel
  term := by decide +kernel
  names := by decide +kernel

example : getSection 5 [46] (some demoFile) ≠ .ub := C90_safe_partial demo_sane (by decide) _

/-- A file with headers of 40 bytes, as in 32-bit files, and no sections. -/
def demo32 : Bytes := [0x7f, 0x45, 0x4c, 0x46] ++ List.replicate 54 0 ++ le 2 40 ++ le 2 0 ++ le 2 0

example : ∃ o o', gdbApply (some demo32) [47, 112] ENONE (fun _ => 0) = .ok o ∧ gdbApply none [47, 112] o.state (fun _ => 0) = .ok o' ∧ o'.loaded = none ∧ o.state = EUNKNOWN := by
  have h1 : gdbApply (some demo32) [47, 112] ENONE (fun _ => 0) = .ok ⟨EINVAL, EUNKNOWN, none⟩ := by decide +kernel
  have h2 : gdbApply none [47, 112] EUNKNOWN (fun _ => 0) = .ok ⟨ENOENT, EUNKNOWN, none⟩ := by decide +kernel
  have := C91_bad_file_disables (f := demo32) (h := ⟨0, 40, 0, 0⟩) (by decide +kernel) (by decide) h1 none h2
  exact ⟨_, _, h1, h2, this.2.2.1, this.1⟩

example : ∀ o, gdbApply (some demoFile) [47, 112] ENONE (fun _ => 0) = .ok o → o.state = ENONE := fun _ ho =>
  C91_state_kept_partial (fun f h hf hp => by
    obtain rfl := Option.some.inj hf
    have : parseEhdr demoFile = some ⟨64, 64, 4, 1⟩ := by decide +kernel
    rw [this] at hp
    exact (Option.some.inj hp) ▸ rfl) ho

example : ∀ o, gdbApply (some demoFile) [47, 112] EUSRBLOCKED (fun _ => 0) = .ok o → o.loaded = none := fun _ ho =>
  C91_error_state_blocks (by decide) ho

end Verif.MiniElf
