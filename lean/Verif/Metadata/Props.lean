import Verif.Metadata.Lemmas

/-! Properties C13, C14, C15, C16, C17. -/

namespace Verif.Metadata

open Spec

/-- Allocations succeed. -/
abbrev mem (bytes : Bytes) : Src := ⟨bytes, fun _ _ => true⟩

/-! ### C13, C14 -/

theorem Reads.run {α} {m : P α} {x bs} (h : Reads m x bs) (rest c0 : Bytes) :
    ∃ c, m (mem (bs ++ rest)) ⟨0, c0⟩ = .ok (x, ⟨bs.length, c⟩) := by
  have := h (mem (bs ++ rest)) ⟨0, c0⟩ rest (Nat.zero_le _) (fun _ _ => rfl) rfl
  simpa using this

theorem extract_ok {data : Bytes} {path : Str} {out} (h : extract data path = .ok out) :
    out = data.take 33 ++ packStr path ++ data.drop 33 ∧ path.length + 1 < 4096 ∧ 33 ≤ data.length ∧
    out.length = data.length + path.length + 5 ∧ out.length < bufLen := by
  unfold extract at h
  simp only at h
  split at h
  · simp at h
  · split at h
    · simp at h
    · split at h
      · simp at h
      · rename_i h1 h2 h3
        have hp : path.length + 1 < 4096 := Nat.lt_of_not_le h1
        cases h
        refine ⟨by simp [packStr], hp, by omega, by simp; omega, ?_⟩
        simp
        omega

theorem goodStr_path {path : Str} (h0 : (0 : UInt8) ∉ path) (hp : path.length + 1 < 4096) : GoodStr path :=
  ⟨h0, by omega⟩

/-- What the parser is given for a patch to apply. -/
theorem Reads.apply {p : Patch} (hg : Good p) {path : Str} (hp : GoodStr path) (hne : path ≠ []) :
    Reads parseMetadata ⟨1, p.patchId, path ++ [0] ++ [0], p.buildId, p.name ++ [0] ++ [0],
        p.units.map unitOf, p.deps.map id, p.refs.map refOf⟩
      ((packApply p).take 33 ++ Metadata.packStr path ++ (packApply p).drop 33) := by
  have h33 : ([1] ++ p.patchId : Bytes).length = 33 := by simp [hg.id]
  unfold packApply
  rw [List.take_left' h33, List.drop_left' h33]
  have hname := hg.name.2
  have hh := Reads.header (t := 1) (buildId := p.buildId) (nm := p.name ++ [0]) hg.id hp hne hg.buildId
    (by simp; omega)
  have := hh.bind (f := fun (type, id, path, buildId, name) =>
      if type = 2 then (Pure.pure ⟨type, id, path, buildId, name, [], [], []⟩ : P Parsed)
      else do
        let (units, deps, refs) ← readBody
        Pure.pure ⟨type, id, path, buildId, name, units, deps, refs⟩)
    (by
      simp only
      rw [if_neg (by decide)]
      exact (Reads.body hg).bind_pure)
  have e : [1] ++ p.patchId ++ Metadata.packStr path ++ packBuildId p.buildId ++ le 4 (p.name ++ [0]).length ++ (p.name ++ [0]) ++
      (le 4 p.units.length ++ p.units.flatMap packUnit ++ le 4 p.deps.length ++ p.deps.flatMap id ++
        le 4 p.refs.length ++ p.refs.flatMap packRef) =
      [1] ++ p.patchId ++ Metadata.packStr path ++ (packBuildId p.buildId ++ Metadata.packStr p.name ++
        le 4 p.units.length ++ p.units.flatMap packUnit ++ le 4 p.deps.length ++ p.deps.flatMap id ++
        le 4 p.refs.length ++ p.refs.flatMap packRef) := by
    simp [Metadata.packStr]
  rw [e] at this
  exact this

theorem isApply {p : Patch} (hg : Good p) {path : Str} (hp : GoodStr path) :
    IsApply ⟨1, p.patchId, path ++ [0] ++ [0], p.buildId, p.name ++ [0] ++ [0],
        p.units.map unitOf, p.deps.map id, p.refs.map refOf⟩ p path where
  type := rfl
  id := rfl
  path := by simp only [List.append_assoc, List.singleton_append]; exact cstring_append hp.1 _
  buildId := rfl
  name := by simp only [List.append_assoc, List.singleton_append]; exact cstring_append hg.name.1 _
  units := by
    refine all₂_map unitOf _ fun u hu => ?_
    have := hg.units u hu
    refine ⟨?_, ?_, rfl⟩
    · simp only [unitOf, List.append_assoc, List.singleton_append]; exact cstring_append this.1.1 _
    · simp only [unitOf, List.append_assoc, List.singleton_append]; exact cstring_append this.2.1.1 _
  deps := List.map_id _
  refs := by
    refine all₂_map refOf _ fun u hu => ?_
    have := hg.refs u hu
    refine ⟨?_, ?_, rfl, rfl, rfl⟩
    · simp only [refOf]; exact cstring_append this.1.1 _
    · simp only [refOf]; exact cstring_append this.2.1.1 _

/-- **C13** The metadata the packer writes for a patch, with the path of the container inserted by the
trigger tool, and whatever follows in the buffer, is parsed to exactly that patch, and exactly that
metadata is consumed. -/
theorem C13_roundtrip {p : Patch} (hg : Good p) {path : Str} (h0 : (0 : UInt8) ∉ path) (hne : path ≠ [])
    {out : Bytes} (hx : extract (packApply p) path = .ok out) (rest c0 : Bytes) :
    ∃ q st, parse (mem (out ++ rest)) c0 = .ok (q, st) ∧ IsApply q p path ∧ st.cur = out.length := by
  obtain ⟨rfl, hp, -, -, -⟩ := extract_ok hx
  have hgp := goodStr_path h0 hp
  obtain ⟨c, hc⟩ := (Reads.apply hg hgp hne).run rest c0
  exact ⟨_, _, hc, isApply hg hgp, rfl⟩

theorem extract_small {data : Bytes} (h33 : 33 ≤ data.length) {path : Str} (hp : path.length + 1 < 4096)
    (hs : data.length + path.length + 5 < 512 * 1024) : ∃ out, extract data path = .ok out := by
  refine ⟨data.take 33 ++ le 4 (path.length + 1) ++ (path ++ [0]) ++ data.drop 33, ?_⟩
  unfold extract
  simp only
  rw [if_neg (by unfold pathMax; omega), if_neg (by unfold bufLen; omega), if_neg (by omega)]

/-- **C13** The trigger tool builds metadata for every patch that is small enough. -/
theorem C13_extract_succeeds {p : Patch} (hg : Good p) {path : Str} (hp : path.length + 1 < 4096)
    (hs : (packApply p).length + path.length + 5 < 512 * 1024) : ∃ out, extract (packApply p) path = .ok out := by
  refine extract_small ?_ hp hs
  unfold packApply
  rw [List.length_append, List.length_append, hg.id]
  simp

/-- **C14** The revert metadata is parsed to a request to revert that patch. -/
theorem C14_revert_roundtrip {p : Patch} (hg : Good p) {path : Str} (h0 : (0 : UInt8) ∉ path) (hne : path ≠ [])
    {out : Bytes} (hx : extract (packRevert p) path = .ok out) (rest c0 : Bytes) :
    ∃ q st, parse (mem (out ++ rest)) c0 = .ok (q, st) ∧ IsRevert q p path ∧ st.cur = out.length := by
  obtain ⟨rfl, hp, -, -, -⟩ := extract_ok hx
  have hgp := goodStr_path h0 hp
  have h33 : ([2] ++ p.patchId : Bytes).length = 33 := by simp [hg.id]
  have hname := hg.name.2
  have hh := Reads.header (t := 2) (buildId := p.buildId) (nm := p.name) hg.id hgp hne hg.buildId (by omega)
  have h2 : Reads parseMetadata ⟨2, p.patchId, path ++ [0] ++ [0], p.buildId, p.name ++ [0], [], [], []⟩
      ([2] ++ p.patchId ++ packStr path ++ packBuildId p.buildId ++ le 4 p.name.length ++ p.name) := by
    refine hh.bind0 ?_
    show Reads (if (2 : UInt8) = 2 then _ else _) _ _
    rw [if_pos rfl]
    exact Reads.pure _
  unfold packRevert
  rw [List.take_left' h33, List.drop_left' h33]
  obtain ⟨c, hc⟩ := h2.run rest c0
  have e : [2] ++ p.patchId ++ packStr path ++ packBuildId p.buildId ++ le 4 p.name.length ++ p.name =
      [2] ++ p.patchId ++ packStr path ++ (packBuildId p.buildId ++ (le 4 p.name.length ++ p.name)) := by simp
  rw [e] at hc
  refine ⟨_, _, hc, ⟨rfl, rfl, ?_, rfl, ?_, rfl, rfl, rfl⟩, rfl⟩
  · simp only [List.append_assoc, List.singleton_append]; exact cstring_append h0 _
  · exact cstring_append hg.name.1 _

/-- A patch with two functions, a dependency and two references. -/
def demoPatch : Patch where
  patchId := List.replicate 32 7
  buildId := [1, 2, 3, 4]
  name := [108, 105, 98, 99]
  units := [⟨[102], [103, 104], 0x1234567⟩, ⟨[120, 121], [122], 0⟩]
  deps := [List.replicate 32 9]
  refs := [⟨[97], [98], 0x10, 0x7fffffffffff, true⟩, ⟨[99, 100], [101], 1, 2, false⟩]

theorem demoPatch_good : Good demoPatch where
  id := by decide
  buildId := by decide
  name := ⟨by decide, by decide⟩
  nunits := by decide
  units := by
    intro u hu
    simp [demoPatch] at hu
    rcases hu with rfl | rfl <;> exact ⟨⟨by decide, by decide⟩, ⟨by decide, by decide⟩, by decide⟩
  ndeps := by decide
  deps := by intro d hd; simp [demoPatch] at hd; simp [hd]
  nrefs := by decide
  refs := by
    intro u hu
    simp [demoPatch] at hu
    rcases hu with rfl | rfl <;> exact ⟨⟨by decide, by decide⟩, ⟨by decide, by decide⟩, by decide, by decide⟩

example : ∃ out, extract (packApply demoPatch) [47, 112] = .ok out ∧
    ∃ q st, parse (mem (out ++ [0, 0, 0])) [1, 2, 3, 4] = .ok (q, st) ∧ IsApply q demoPatch [47, 112] ∧ st.cur = out.length := by
  obtain ⟨out, h⟩ := C13_extract_succeeds demoPatch_good (path := [47, 112]) (by decide) (by decide +kernel)
  exact ⟨out, h, C13_roundtrip demoPatch_good (by decide) (by decide) h _ _⟩

example : ∃ out q st, extract (packRevert demoPatch) [47, 112] = .ok out ∧
    parse (mem (out ++ [0, 0, 0])) [] = .ok (q, st) ∧ IsRevert q demoPatch [47, 112] := by
  obtain ⟨out, h⟩ : ∃ out, extract (packRevert demoPatch) [47, 112] = .ok out := ⟨_, rfl⟩
  obtain ⟨q, st, h1, h2, -⟩ := C14_revert_roundtrip demoPatch_good (by decide) (by decide) h [0, 0, 0] []
  exact ⟨out, q, st, h, h1, h2⟩

/-! ### C15 -/

/-- **C15**, the part that is true: whatever the buffer holds, and whichever allocations fail, the parser
neither reads nor writes outside of its buffers, unless there are four consecutive 0xFF bytes in the
metadata.  Missing: such metadata (`C15_length_ff_overflows`). -/
theorem C15_parser_safe_partial (s : Src) (c0 : Bytes)
    (hff : ∀ i, (s.bytes.drop i).take 4 ≠ [255, 255, 255, 255]) : parse s c0 ≠ .ub := by
  have := Safe.parseMetadata s ⟨0, c0⟩ (Nat.zero_le _) hff
  intro h
  unfold parse at h
  rw [h] at this
  exact this

/-- Negation of **C15**: with a path length of 0xFFFFFFFF a buffer of no bytes is allocated, and all that
follows in the metadata is copied to it; so the rest of the metadata is written outside. -/
theorem C15_length_ff_overflows (t : UInt8) (id rest : Bytes) (hid : id.length = 32) (hr : rest ≠ [])
    (alloc : Nat → Nat → Bool) (ha : alloc 37 0 = true) (c0 : Bytes) :
    parse ⟨[t] ++ id ++ [255, 255, 255, 255] ++ rest, alloc⟩ c0 = .ub := by
  have hlen : ([t] ++ id ++ [255, 255, 255, 255] ++ rest).length = 37 + rest.length := by simp [hid]; omega
  have hr1 : 0 < rest.length := List.length_pos_iff.mpr hr
  unfold parse parseMetadata
  rw [bind_def]
  have : readHeader ⟨[t] ++ id ++ [255, 255, 255, 255] ++ rest, alloc⟩ ⟨0, c0⟩ = .ub := by
    generalize hs : (⟨[t] ++ id ++ [255, 255, 255, 255] ++ rest, alloc⟩ : Src) = s
    have hb : s.bytes = [t] ++ id ++ [255, 255, 255, 255] ++ rest := by rw [← hs]
    have hal : s.alloc = alloc := by rw [← hs]
    have hl : s.bytes.length = 37 + rest.length := by rw [hb, hlen]
    unfold readHeader
    refine bind_of (a := [t]) (st' := ⟨1, c0⟩) ?_ ?_
    · unfold readField
      refine bind_of (a := [t]) (st' := ⟨1, c0⟩) ?_ rfl
      rw [readFromMem_eq _ _ _ _ (Nat.zero_le _), if_neg (by simp; omega)]
      simp [hb]
    refine bind_of (a := id) (st' := ⟨33, c0⟩) ?_ ?_
    · unfold readField
      refine bind_of (a := id) (st' := ⟨33, c0⟩) ?_ ?_
      · rw [readFromMem_eq _ _ _ _ (by simp only; omega), if_neg (by simp; omega)]
        have : (s.bytes.drop 1).take 32 = id := by
          rw [hb]
          simp only [List.cons_append, List.nil_append, List.append_assoc, List.drop_succ_cons, List.drop_zero]
          exact List.take_left' hid
        simp only [List.length_replicate, this]
        congr 3
        omega
      · rw [if_neg (by omega), hid, List.drop_of_length_le (by simp), List.append_nil]
        rfl
    refine bind_of (a := 2 ^ 32 - 1) (st' := ⟨37, [255, 255, 255, 255]⟩) ?_ ?_
    · unfold readC
      refine bind_of (a := [255, 255, 255, 255]) (st' := ⟨37, c0⟩) ?_ ?_
      rotate_left
      · refine bind_of (a := [255, 255, 255, 255]) (st' := ⟨37, [255, 255, 255, 255]⟩) (by simp [setC]) ?_
        rw [if_neg (by simp), pure_def, show leVal [255, 255, 255, 255] = 2 ^ 32 - 1 by decide]
      rw [readFromMem_eq _ _ _ _ (by simp only; omega), if_neg (by omega)]
      have : (s.bytes.drop 33).take 4 = [255, 255, 255, 255] := by
        rw [hb, List.append_assoc, List.drop_left' (by simp [hid])]
        rfl
      rw [this]
      congr 3
      simp only
      omega
    rw [bind_def]
    unfold readStr
    rw [bind_def]
    unfold calloc
    rw [if_pos (by rw [hal]; exact ha)]
    simp only
    rw [bind_def, readFromMem_eq _ _ _ _ (by simp only; omega), if_pos (by simp only [hl]; omega)]
  rw [this]

example : parse ⟨[1] ++ List.replicate 32 7 ++ [255, 255, 255, 255] ++ [66, 66], fun _ _ => true⟩ [0, 0, 0, 0] = .ub :=
  C15_length_ff_overflows _ _ _ (by decide) (by decide) _ rfl _

/-! ### C16 -/

theorem parse_type {s : Src} {c0 q st} (h : parse s c0 = .ok (q, st)) : s.bytes.head? = some q.type := by
  unfold parse parseMetadata at h
  obtain ⟨hd, st1, hh, h⟩ := bind_ok h
  have hq : q.type = hd.1 := by
    obtain ⟨type, id, path, buildId, name⟩ := hd
    simp only at h
    split at h
    · rw [pure_def] at h
      simp at h
      rw [← h.1]
    · obtain ⟨b, st2, -, h⟩ := bind_ok h
      rw [pure_def] at h
      simp at h
      rw [← h.1]
  unfold readHeader at hh
  obtain ⟨ty, st2, h2, hh⟩ := bind_ok hh
  obtain ⟨x3, st3, h3, hh⟩ := bind_ok hh
  obtain ⟨x4, st4, h4, hh⟩ := bind_ok hh
  obtain ⟨x5, st5, h5, hh⟩ := bind_ok hh
  have hty : hd.1 = ty.headD 0 := by
    split at hh
    · simp [fail] at hh
    · obtain ⟨x6, st6, h6, hh⟩ := bind_ok hh
      obtain ⟨x7, st7, h7, hh⟩ := bind_ok hh
      obtain ⟨x8, st8, h8, hh⟩ := bind_ok hh
      obtain ⟨x9, st9, h9, hh⟩ := bind_ok hh
      obtain ⟨x10, st10, h10, hh⟩ := bind_ok hh
      rw [pure_def] at hh
      simp at hh
      rw [← hh.1]
      simp
  unfold readField at h2
  obtain ⟨got, st11, h11, h2⟩ := bind_ok h2
  obtain ⟨hgot, -, -, -, -⟩ := readFromMem_more (Nat.zero_le _) h11
  rw [hq, hty]
  cases hb : s.bytes with
  | nil =>
    rw [hb] at hgot
    simp at hgot
    subst hgot
    rw [if_pos (by simp)] at h2
    simp [fail] at h2
  | cons b bs =>
    rw [hb] at hgot
    simp at hgot
    subst hgot
    rw [if_neg (by simp), pure_def] at h2
    simp at h2
    rw [← h2.1]
    rfl

/-- **C16**, the part that is true: if a buffer of exactly the size of the metadata (as the trigger tool
parses it) is accepted as a patch to apply, then every value comes from bytes that are there: any longer
buffer starting with these bytes is parsed to the same patch, with the same bytes consumed.
Missing: parsing in the process, where zeros follow (`C16_cut_in_process_accepted`), and revert metadata
(`C16_cut_revert_accepted`). -/
theorem C16_accepted_is_complete_partial {s : Src} {c0 q st} (h : parse s c0 = .ok (q, st)) (ht : q.type ≠ 2) (t : Bytes) :
    st.cur ≤ s.bytes.length ∧ parse { s with bytes := s.bytes ++ t } c0 = .ok (q, st) := by
  unfold parse parseMetadata at h
  obtain ⟨hd, st1, hh, h⟩ := bind_ok h
  obtain ⟨p1, p2, p3⟩ := Ext.readHeader s ⟨0, c0⟩ hd st1 (Nat.zero_le _) hh
  obtain ⟨type, id, path, buildId, name⟩ := hd
  simp only at h
  split at h
  · rename_i h2
    rw [pure_def] at h
    simp at h
    rw [← h.1] at ht
    exact absurd h2 ht
  · rename_i h2
    obtain ⟨b, st2, hb, hp⟩ := bind_ok h
    obtain ⟨q1, q2, q3⟩ := ExtStrict.readBody s st1 b st2 p2 hb
    have hst : st2 = st := by rw [pure_def] at hp; simp at hp; exact hp.2
    subst hst
    refine ⟨q2, ?_⟩
    rcases p3 with p3 | p3
    · unfold parse parseMetadata
      refine bind_of (p3 t) ?_
      simp only
      rw [if_neg h2]
      exact bind_of (q3 t) hp
    · exact absurd hb (FailsAtEnd.readBody s st1 b st2 p3)

/-- **C16**, the part that is true: no proper prefix of the metadata of a patch to apply is accepted when
parsed with its own size. -/
theorem C16_cut_apply_rejected_partial {p : Patch} (hg : Good p) {path : Str} (h0 : (0 : UInt8) ∉ path) (hne : path ≠ [])
    {out : Bytes} (hx : extract (packApply p) path = .ok out) (n : Nat) (hn : n < out.length) (c0 : Bytes) (q st) :
    parse (mem (out.take n)) c0 ≠ .ok (q, st) := by
  intro h
  have hty := parse_type h
  have h1 : q.type = 1 := by
    obtain ⟨he, -, -, -, -⟩ := extract_ok hx
    cases n with
    | zero => simp at hty
    | succ n =>
      have : ∃ l, out = 1 :: l := by rw [he]; exact ⟨_, rfl⟩
      obtain ⟨l, hl⟩ := this
      rw [hl] at hty
      simp at hty
      exact hty.symm
  obtain ⟨hcur, hp⟩ := C16_accepted_is_complete_partial h (by rw [h1]; decide) (out.drop n)
  obtain ⟨q', st', hq, -, hst⟩ := C13_roundtrip hg h0 hne hx [] c0
  simp only [List.take_append_drop] at hp
  rw [List.append_nil, hp] at hq
  simp only [Res.ok.injEq, Prod.mk.injEq] at hq
  rw [← hq.2] at hst
  simp at hcur
  omega

/-- The metadata of the example patch, cut at any place. -/
example : ∃ out, extract (packApply demoPatch) [47, 112] = .ok out ∧ 190 < out.length ∧
    ∀ n, n < out.length → ∀ q st, parse (mem (out.take n)) [9, 9, 9, 9] ≠ .ok (q, st) := by
  obtain ⟨out, h⟩ := C13_extract_succeeds demoPatch_good (path := [47, 112]) (by decide) (by decide +kernel)
  refine ⟨out, h, ?_, fun n hn q st => C16_cut_apply_rejected_partial demoPatch_good (by decide) (by decide) h n hn _ q st⟩
  rw [(extract_ok h).2.2.2.1]
  decide +kernel

theorem le_cut (j v : Nat) : ∀ k, j ≤ k → le k (v % 256 ^ j) = (le k v).take j ++ List.replicate (k - j) 0 := by
  induction j generalizing v with
  | zero =>
    intro k _
    rw [Nat.pow_zero, Nat.mod_one, List.take_zero, List.nil_append, Nat.sub_zero]
    induction k with
    | zero => rfl
    | succ k ih => rw [le, List.replicate_succ, Nat.zero_div, ih (Nat.zero_le _)]; rfl
  | succ j ih =>
    intro k hk
    cases k with
    | zero => omega
    | succ k =>
      have h1 : (v % 256 ^ (j + 1)) / 256 = (v / 256) % 256 ^ j := by
        rw [Nat.pow_succ, Nat.mul_comm, Nat.mod_mul, Nat.add_mul_div_left _ _ (by omega)]
        omega
      have h2 : UInt8.ofNat (v % 256 ^ (j + 1)) = UInt8.ofNat v := by
        apply UInt8.toNat_inj.mp
        rw [UInt8.toNat_ofNat', UInt8.toNat_ofNat', Nat.pow_succ, Nat.mul_comm, Nat.mod_mul]
        omega
      rw [le, le, h1, h2, ih _ k (by omega), List.take_succ_cons, List.cons_append, Nat.add_sub_add_right]

/-- Negation of **C16**: in the process the metadata is followed by zeros.  Metadata cut inside of the address of
the last function is accepted there, with an address that is not in it: the missing bytes are taken to
be zero. -/
theorem C16_cut_in_process_accepted {p : Patch} (hg : Good p) {us : List Unit'} {u : Unit'} (hu : p.units = us ++ [u])
    (hd : p.deps = []) (hr : p.refs = []) {path : Str} (h0 : (0 : UInt8) ∉ path) (hne : path ≠ [])
    {out : Bytes} (hx : extract (packApply p) path = .ok out) (j k : Nat) (hj : j ≤ 8) (hk : 16 - j ≤ k) (c0 : Bytes) :
    ∃ q st, parse (mem (out.take (out.length - (16 - j)) ++ List.replicate k 0)) c0 = .ok (q, st) ∧
      IsApply q { p with units := us ++ [{ u with oldFaddr := u.oldFaddr % 256 ^ j }] } path := by
  generalize hp' : ({ p with units := us ++ [{ u with oldFaddr := u.oldFaddr % 256 ^ j }] } : Patch) = p'
  have hg' : Good p' := by
    subst hp'
    refine ⟨hg.id, hg.buildId, hg.name, ?_, ?_, hg.ndeps, hg.deps, hg.nrefs, hg.refs⟩
    · have := hg.nunits
      rw [hu] at this
      simpa using this
    · intro v hv
      simp at hv
      rcases hv with hv | rfl
      · exact hg.units v (by rw [hu]; simp [hv])
      · have := hg.units u (by rw [hu]; simp)
        refine ⟨this.1, this.2.1, ?_⟩
        have h1 : u.oldFaddr % 256 ^ j ≤ u.oldFaddr := Nat.mod_le _ _
        have := this.2.2
        simp only
        omega
  obtain ⟨rfl, hp, -, -, -⟩ := extract_ok hx
  have hgp := goodStr_path h0 hp
  have h33 : ([1] ++ p.patchId : Bytes).length = 33 := by simp [hg.id]
  have h33' : ([1] ++ p'.patchId : Bytes).length = 33 := by simp [hg'.id]
  -- everything before the address
  generalize hA : [1] ++ p.patchId ++ packStr path ++ (packBuildId p.buildId ++ packStr p.name ++ le 4 (us.length + 1) ++
    us.flatMap packUnit ++ packStr u.oldFname ++ packStr u.newFname) = A
  have e1 : (packApply p).take 33 ++ packStr path ++ (packApply p).drop 33 = A ++ le 8 u.oldFaddr ++ List.replicate 8 0 := by
    unfold packApply
    rw [List.take_left' h33, List.drop_left' h33, ← hA, hu, hd, hr]
    simp [packUnit, le]
  have e2 : (packApply p').take 33 ++ packStr path ++ (packApply p').drop 33 =
      A ++ le 8 (u.oldFaddr % 256 ^ j) ++ List.replicate 8 0 := by
    unfold packApply
    rw [List.take_left' h33', List.drop_left' h33', ← hA, ← hp']
    simp [packUnit, le, hd, hr]
  obtain ⟨c, hc⟩ := (Reads.apply hg' hgp hne).run (List.replicate (k - (16 - j)) 0) c0
  have key : parse (mem (((packApply p).take 33 ++ packStr path ++ (packApply p).drop 33).take
      (((packApply p).take 33 ++ packStr path ++ (packApply p).drop 33).length - (16 - j)) ++ List.replicate k 0)) c0 =
      parseMetadata (mem ((packApply p').take 33 ++ packStr path ++ (packApply p').drop 33 ++
        List.replicate (k - (16 - j)) 0)) ⟨0, c0⟩ := ?_
  · exact ⟨_, _, key.trans hc, isApply hg' hgp⟩
  unfold parse
  rw [e1, e2]
  congr 2
  rw [le_cut j _ 8 hj]
  have hl : (A ++ le 8 u.oldFaddr ++ List.replicate 8 0).length - (16 - j) = A.length + j := by simp; omega
  rw [hl, List.append_assoc A, List.take_length_add_append, List.take_append_of_le_length (by simp; omega)]
  simp only [List.append_assoc]
  congr 2
  rw [List.replicate_append_replicate, List.replicate_append_replicate]
  congr 1
  omega

/-- Negation of **C16** for revert metadata, parsed with its own size: if the length of the name is a multiple of
256, cutting the metadata after the first byte of that length gives metadata that is accepted, with an
empty name of the target library. -/
theorem C16_cut_revert_accepted {p : Patch} (hg : Good p) (hb : p.buildId.length < 256) (hn : p.name.length % 256 = 0)
    {path : Str} (h0 : (0 : UInt8) ∉ path) (hne : path ≠ []) {out : Bytes} (hx : extract (packRevert p) path = .ok out)
    (c0 : Bytes) :
    ∃ q st, parse (mem (out.take (out.length - p.name.length - 3))) c0 = .ok (q, st) ∧ IsRevert q { p with name := [] } path := by
  obtain ⟨rfl, hp, -, -, -⟩ := extract_ok hx
  have hgp := goodStr_path h0 hp
  have h33 : ([2] ++ p.patchId : Bytes).length = 33 := by simp [hg.id]
  generalize hA : [2] ++ p.patchId ++ packStr path ++ packBuildId p.buildId = A
  have e1 : (packRevert p).take 33 ++ packStr path ++ (packRevert p).drop 33 = A ++ ([0] ++ (le 3 (p.name.length / 256) ++ p.name)) := by
    unfold packRevert
    rw [List.take_left' h33, List.drop_left' h33, ← hA]
    have : le 4 p.name.length = [0] ++ le 3 (p.name.length / 256) := by
      have : UInt8.ofNat p.name.length = 0 := by
        apply UInt8.toNat_inj.mp
        rw [UInt8.toNat_ofNat']
        exact hn
      show UInt8.ofNat p.name.length :: _ = _
      rw [this]
      rfl
    rw [this]
    simp
  have e2 : (A ++ ([0] ++ (le 3 (p.name.length / 256) ++ p.name))).take
      ((A ++ ([0] ++ (le 3 (p.name.length / 256) ++ p.name))).length - p.name.length - 3) = A ++ [0] := by
    have hl : (A ++ ([0] ++ (le 3 (p.name.length / 256) ++ p.name))).length - p.name.length - 3 = A.length + 1 := by simp; omega
    rw [hl, List.take_length_add_append]
    rfl
  rw [e1, e2]
  -- run the header on A ++ [0]
  refine ⟨⟨2, p.patchId, path ++ [0] ++ [0], p.buildId, [0], [], [], []⟩, ⟨A.length + 1, [0, 0, 0, 0]⟩, ?_, ?_⟩
  · unfold parse parseMetadata
    refine bind_of (a := (2, p.patchId, path ++ [0] ++ [0], p.buildId, [0])) (st' := ⟨A.length + 1, [0, 0, 0, 0]⟩) ?_ rfl
    have hdr : ∀ s st (_ : st.cur ≤ s.bytes.length) (_ : ∀ a b, s.alloc a b = true)
        (_ : s.bytes.drop st.cur = packBuildId p.buildId ++ [0]) (t : Bytes) (pa : Bytes),
        (do let c ← readC 1
            let buildId ← readBuf c EINVALIDULP
            let c ← readC 1
            let name ← readStr c
            (Pure.pure (t.headD 0, p.patchId, pa, buildId, name) : P (UInt8 × Bytes × Bytes × Bytes × Bytes))) s st =
        .ok ((t.headD 0, p.patchId, pa, p.buildId, [0]), ⟨st.cur + 4 + p.buildId.length + 1, [0, 0, 0, 0]⟩) := by
      intro s st hc ha hd t pa
      have hlen := congrArg List.length hd
      simp [packBuildId] at hlen
      refine bind_of (a := p.buildId.length) (st' := ⟨st.cur + 4, le 4 p.buildId.length⟩) ?_ ?_
      · unfold readC
        refine bind_of (a := le 4 p.buildId.length) (st' := ⟨st.cur + 4, st.c⟩) ?_ ?_
        · rw [readFromMem_eq _ _ _ _ hc, if_neg (by omega), hd, packBuildId, List.append_assoc,
            List.take_left' (by simp), Nat.min_eq_left (by omega)]
        · refine bind_of (a := le 4 p.buildId.length) (st' := ⟨st.cur + 4, le 4 p.buildId.length⟩) ?_ ?_
          · simp [setC]
          · rw [if_neg (by simp), leVal_le_of_lt (by omega)]
            rfl
      have hd4 : s.bytes.drop (st.cur + 4) = p.buildId ++ [0] := by
        rw [← List.drop_drop, hd, packBuildId, List.append_assoc, List.drop_left' (by simp)]
      refine bind_of (a := p.buildId) (st' := ⟨st.cur + 4 + p.buildId.length, le 4 p.buildId.length⟩) ?_ ?_
      · unfold readBuf
        refine bind_of (a := ()) (st' := ⟨st.cur + 4, le 4 p.buildId.length⟩) (by unfold calloc; rw [if_pos (ha _ _)]) ?_
        refine bind_of (a := p.buildId) (st' := ⟨st.cur + 4 + p.buildId.length, le 4 p.buildId.length⟩) ?_ ?_
        · rw [readFromMem_eq _ _ _ _ (by simp only; omega), if_neg (by omega)]
          simp only
          rw [hd4, List.take_left' rfl, Nat.min_eq_left (by omega)]
        · rw [if_neg (by omega)]
          rfl
      have hd5 : s.bytes.drop (st.cur + 4 + p.buildId.length) = [0] := by
        rw [← List.drop_drop, hd4, List.drop_left]
      refine bind_of (a := 0) (st' := ⟨st.cur + 4 + p.buildId.length + 1, [0, 0, 0, 0]⟩) ?_ ?_
      · unfold readC
        refine bind_of (a := [0]) (st' := ⟨st.cur + 4 + p.buildId.length + 1, le 4 p.buildId.length⟩) ?_ ?_
        · rw [readFromMem_eq _ _ _ _ (by simp only; omega), if_neg (by omega)]
          simp only
          rw [hd5, Nat.min_eq_right (by omega)]
          congr 3
          omega
        · have hz : p.buildId.length / 256 = 0 := by omega
          have hle : (le 4 p.buildId.length).drop 1 = [0, 0, 0] := by
            show le 3 (p.buildId.length / 256) = _
            rw [hz]
            rfl
          refine bind_of (a := [0, 0, 0, 0]) (st' := ⟨st.cur + 4 + p.buildId.length + 1, [0, 0, 0, 0]⟩) ?_ rfl
          simp only [setC, List.length_singleton, hle]
          rfl
      · refine bind_of (a := [0]) (st' := ⟨st.cur + 4 + p.buildId.length + 1, [0, 0, 0, 0]⟩) ?_ rfl
        unfold readStr
        refine bind_of (a := ()) (st' := ⟨st.cur + 4 + p.buildId.length + 1, [0, 0, 0, 0]⟩) (by unfold calloc; rw [if_pos (ha _ _)]) ?_
        refine bind_of (a := []) (st' := ⟨st.cur + 4 + p.buildId.length + 1, [0, 0, 0, 0]⟩) ?_ rfl
        rw [readFromMem_eq _ _ _ _ (by simp only; omega), if_neg (by omega)]
        simp
    have hAlen : A.length = 33 + (4 + (path.length + 1)) + (4 + p.buildId.length) := by
      rw [← hA]; simp [packStr, packBuildId, hg.id]; omega
    unfold readHeader
    obtain ⟨c1, h1⟩ := (Reads.readField (old := [0]) (need := 1) (e := EINVALIDULP) (bs := [2]) (by simp) (by simp))
      (mem (A ++ [0])) ⟨0, c0⟩ (p.patchId ++ packStr path ++ packBuildId p.buildId ++ [0]) (Nat.zero_le _) (fun _ _ => rfl)
      (by rw [← hA]; simp)
    refine bind_of h1 ?_
    obtain ⟨c2, h2⟩ := (Reads.readField (old := List.replicate 32 0) (need := 32) (e := EINVALIDULP) (bs := p.patchId)
      (by simp [hg.id]) (by simp))
      (mem (A ++ [0])) ⟨1, c1⟩ (packStr path ++ packBuildId p.buildId ++ [0]) (by simp) (fun _ _ => rfl)
      (by rw [← hA]; simp)
    refine bind_of h2 ?_
    have hd33 : (A ++ [0]).drop 33 = packStr path ++ (packBuildId p.buildId ++ [0]) := by
      rw [← hA, List.append_assoc, List.append_assoc, List.append_assoc, ← List.append_assoc, List.drop_left' h33]
    obtain ⟨c3, h3⟩ := (Reads.readC (need := 1) (v := path.length + 1) (by have := hgp.2; omega) (by omega))
      (mem (A ++ [0])) ⟨1 + p.patchId.length, c2⟩ ((path ++ [0]) ++ (packBuildId p.buildId ++ [0])) (by have := hg.id; simp; omega) (fun _ _ => rfl)
      (by simp only [hg.id]; rw [hd33]; simp [packStr])
    refine bind_of h3 ?_
    obtain ⟨c4, h4⟩ := (Reads.readStr (bs := path ++ [0]) (by have := hgp.2; simp; omega))
      (mem (A ++ [0])) ⟨1 + p.patchId.length + 4, c3⟩ (packBuildId p.buildId ++ [0]) (by have := hg.id; simp; omega) (fun _ _ => rfl)
      (by
        simp only [hg.id]
        rw [show 1 + 32 + 4 = 33 + 4 by rfl, ← List.drop_drop, hd33, packStr, List.append_assoc, List.drop_left' (by simp)])
    rw [List.length_append, List.length_singleton] at h4
    refine bind_of h4 ?_
    rw [if_neg]
    · refine bind_of (a := ()) (st' := ⟨1 + p.patchId.length + 4 + (path.length + 1), c4⟩) rfl ?_
      rw [hdr _ _ (by have := hg.id; simp; omega) (fun _ _ => rfl)]
      · congr 3
        simp only [hg.id]
        omega
      · simp only [hg.id]
        rw [show 1 + 32 + 4 + (path.length + 1) = 33 + (4 + (path.length + 1)) by omega, ← List.drop_drop, hd33,
          List.drop_left' (by simp [packStr])]
    · cases path with
      | nil => exact absurd rfl hne
      | cons x xs =>
        intro hc
        simp at hc
        exact h0 (by simp [hc])
  · exact ⟨rfl, rfl, by simp only [List.append_assoc, List.singleton_append]; exact cstring_append h0 _, rfl, rfl, rfl, rfl, rfl⟩

/-- The example patch with the functions only. -/
def demoFuns : Patch := { demoPatch with deps := [], refs := [] }

theorem demoFuns_good : Good demoFuns where
  id := by decide
  buildId := by decide
  name := ⟨by decide, by decide⟩
  nunits := by decide
  units := demoPatch_good.units
  ndeps := by decide
  deps := by intro d hd; simp [demoFuns] at hd
  nrefs := by decide
  refs := by intro d hd; simp [demoFuns] at hd

/-- The same with one function, at 0x1234567; cut after two bytes of this address, the patch that is
accepted has the address 0x4567. -/
example : ∃ out, extract (packApply { demoFuns with units := [⟨[102], [103], 0x1234567⟩] }) [47, 112] = .ok out ∧
    ∃ q st, parse (mem (out.take (out.length - 14) ++ List.replicate 100 0)) [] = .ok (q, st) ∧
      IsApply q { demoFuns with units := [⟨[102], [103], 0x4567⟩] } [47, 112] := by
  have hg : Good { demoFuns with units := [⟨[102], [103], 0x1234567⟩] } :=
    { demoFuns_good with
      nunits := by decide
      units := by
        intro u hu
        simp at hu
        subst hu
        exact ⟨⟨by decide, by decide⟩, ⟨by decide, by decide⟩, by decide⟩ }
  obtain ⟨out, h⟩ := C13_extract_succeeds hg (path := [47, 112]) (by decide) (by decide +kernel)
  refine ⟨out, h, ?_⟩
  exact C16_cut_in_process_accepted hg (us := []) rfl rfl rfl (by decide) (by decide) h 2 100 (by decide) (by decide) []

/-- Revert metadata for a library with a name of 256 bytes. -/
example : ∃ p out, p.name.length = 256 ∧ extract (packRevert p) [47, 112] = .ok out ∧
    ∃ q st, parse (mem (out.take (out.length - 256 - 3))) [] = .ok (q, st) ∧ cstring q.name = some [] := by
  obtain ⟨nm, hl, h0⟩ : ∃ nm : Str, nm.length = 256 ∧ (0 : UInt8) ∉ nm :=
    ⟨List.replicate 256 65, List.length_replicate, fun h => absurd (List.eq_of_mem_replicate h) (by decide)⟩
  have hg : Good { demoFuns with name := nm } :=
    { demoFuns_good with name := ⟨h0, by rw [hl]; decide⟩ }
  have hlen : (packRevert { demoFuns with name := nm }).length = 33 + (4 + 4) + (4 + 256) := by
    simp [packRevert, packBuildId, demoFuns, demoPatch, hl]
  obtain ⟨out, h⟩ := extract_small (data := packRevert { demoFuns with name := nm }) (path := [47, 112])
    (by omega) (by decide) (by rw [hlen]; decide)
  obtain ⟨q, st, h1, h2⟩ := C16_cut_revert_accepted hg (by simp [demoFuns, demoPatch]) (by rw [hl]) (by decide) (by decide) h []
  simp only [hl] at h1
  exact ⟨_, out, hl, h, q, st, h1, h2.name⟩

/-! ### C17 -/

theorem memcpy_split {x y z bytes : Bytes} {dst : Nat} (hx : x.length = dst) (hy : y.length = bytes.length) :
    memcpy (x ++ y ++ z) dst bytes = x ++ bytes ++ z := by
  unfold memcpy
  rw [List.append_assoc x, List.take_left' hx, ← List.append_assoc, List.drop_left' (by simp; omega)]

/-- **C17** Whenever the trigger tool builds metadata from a section and a path, the gdb interface, having loaded
the section to the zeroed metadata buffer, inserts the path successfully, and the buffer holds exactly
that metadata, followed by zeros as in the process that the trigger tool wrote it to. -/
theorem C17_gdb_same_metadata {data : Bytes} {path : Str} {out : Bytes} (h : extract data path = .ok out) :
    injectPath (data ++ List.replicate (bufLen - data.length) 0) path data.length =
      .ok (out ++ List.replicate (bufLen - out.length) 0) := by
  obtain ⟨rfl, -, h33, hl, hb⟩ := extract_ok h
  rw [hl] at hb ⊢
  unfold injectPath
  generalize bufLen = N at hb
  simp only
  rw [if_neg (by omega), if_neg (by omega)]
  have hA : (data.take 33).length = 33 := by simp; omega
  generalize hAe : data.take 33 = A at hA
  generalize hBe : data.drop 33 = B
  have hd : data = A ++ B := by rw [← hAe, ← hBe, List.take_append_drop]
  have hdl : data.length = 33 + B.length := by rw [hd, List.length_append, hA]
  rw [hdl] at hb ⊢
  rw [hd]
  generalize hz : List.replicate (N - (33 + B.length)) (0 : UInt8) = Z
  have hZ : Z.length = N - (33 + B.length) := by rw [← hz]; simp
  generalize hk : 4 + (path.length + 1) = k
  -- what the shifted bytes overwrite
  have e1 : memmove (A ++ B ++ Z) (33 + k) 33 (33 + B.length - 33) =
      A ++ (B ++ Z).take k ++ B ++ (B ++ Z).drop (k + B.length) := by
    unfold memmove
    have t1 : (A ++ B ++ Z).take (33 + k) = A ++ (B ++ Z).take k := by
      rw [List.append_assoc, ← hA, List.take_length_add_append]
    have t2 : ((A ++ B ++ Z).drop 33).take (33 + B.length - 33) = B := by
      rw [List.append_assoc, List.drop_left' hA, show 33 + B.length - 33 = B.length by omega, List.take_left]
    have t3 : (A ++ B ++ Z).drop (33 + k + (33 + B.length - 33)) = (B ++ Z).drop (k + B.length) := by
      rw [List.append_assoc, show 33 + k + (33 + B.length - 33) = A.length + (k + B.length) by omega, List.drop_length_add_append]
    rw [t1, t2, t3]
  rw [e1]
  have hY : ((B ++ Z).take k).length = k := by simp; omega
  generalize hYe : (B ++ Z).take k = Y at hY
  have hend : (B ++ Z).drop (k + B.length) = List.replicate (N - (33 + B.length + path.length + 5)) 0 := by
    rw [show k + B.length = B.length + k by omega, List.drop_length_add_append, ← hz, List.drop_replicate]
    congr 1
    omega
  rw [hend]
  generalize List.replicate (N - (33 + B.length + path.length + 5)) (0 : UInt8) = W
  obtain ⟨Y1, Y2, rfl, h1, h2⟩ : ∃ Y1 Y2, Y = Y1 ++ Y2 ∧ Y1.length = 4 ∧ Y2.length = path.length + 1 :=
    ⟨Y.take 4, Y.drop 4, (List.take_append_drop ..).symm, by simp; omega, by simp; omega⟩
  have e2 : A ++ (Y1 ++ Y2) ++ B ++ W = A ++ Y1 ++ (Y2 ++ B ++ W) := by simp
  rw [e2, memcpy_split hA (by simp [h1])]
  have e3 : A ++ le 4 (path.length + 1) ++ (Y2 ++ B ++ W) = (A ++ le 4 (path.length + 1)) ++ Y2 ++ (B ++ W) := by simp
  rw [e3, memcpy_split (by simp [hA]) (by simp [h2])]
  simp [packStr]

/-- The section of the example patch. -/
example : ∃ out, extract (packApply demoPatch) [47, 112] = .ok out ∧
    injectPath (packApply demoPatch ++ List.replicate (bufLen - (packApply demoPatch).length) 0) [47, 112] (packApply demoPatch).length =
      .ok (out ++ List.replicate (bufLen - out.length) 0) := by
  obtain ⟨out, h⟩ := C13_extract_succeeds demoPatch_good (path := [47, 112]) (by decide) (by decide +kernel)
  exact ⟨out, h, C17_gdb_same_metadata h⟩

/-! ### More cases -/

/-- A buffer of anything but four bytes 255 in a row: here, lengths of 2^24. -/
example : parse ⟨[1] ++ List.replicate 32 7 ++ [0, 0, 0, 1] ++ [66, 66], fun _ _ => true⟩ [0, 0, 0, 0] ≠ .ub :=
  C15_parser_safe_partial _ _ fun i h => by
    have hm : (255 : UInt8) ∈ ([1] ++ List.replicate 32 7 ++ [0, 0, 0, 1] ++ [66, 66] : Bytes) :=
      List.mem_of_mem_drop (List.mem_of_mem_take (by rw [h]; simp))
    exact absurd hm (by decide)

example : ∃ out q st, extract (packApply demoPatch) [47, 112] = .ok out ∧ parse (mem (out ++ [0, 0, 0])) [1, 2, 3, 4] = .ok (q, st) ∧
    st.cur ≤ (out ++ [0, 0, 0]).length ∧ parse (mem (out ++ [0, 0, 0] ++ [5, 5])) [1, 2, 3, 4] = .ok (q, st) := by
  obtain ⟨out, h⟩ := C13_extract_succeeds demoPatch_good (path := [47, 112]) (by decide) (by decide +kernel)
  obtain ⟨q, st, h1, h2, _⟩ := C13_roundtrip demoPatch_good (by decide) (by decide) h [0, 0, 0] [1, 2, 3, 4]
  have ht : q.type ≠ 2 := by rw [h2.type]; decide
  obtain ⟨h3, h4⟩ := C16_accepted_is_complete_partial h1 ht [5, 5]
  exact ⟨out, q, st, h, h1, h3, h4⟩

end Verif.Metadata
