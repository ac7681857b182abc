import Verif.BuildId.Lemmas

/-!
C26 (the library checks the build id), C27 (the tool checks library and build id) and C54 (the tool finds the build
ids of the loaded libraries).
-/

namespace Verif.BuildId

open Spec

/-! ### C26 -/

/-- The notes of a loaded library are laid out in its segments. -/
def libOf (segs : List (List Note)) : Lib := segs.map segment

/-- What `check_build_id` decides, for any loaded libraries: it accepts exactly when one of them has a build id of
the same length that is *different* from that of the livepatch. -/
theorem C26_check_build_id_iff (id : Bytes) (libs : List (List (List Note)))
    (hg : ∀ lib ∈ libs, ∀ seg ∈ lib, ∀ n ∈ seg, n.Good) :
    checkBuildId id (libs.map libOf) = true ↔
      ∃ lib ∈ libs, ∃ seg ∈ lib, ∃ n, seg.find? libAccepts = some n
        ∧ n.desc.length = id.length ∧ n.desc ≠ id := by
  have hw : ∀ lib ∈ libs, ∀ seg ∈ lib, libWalk ((segment seg).length + 1) (segment seg)
      = (seg.find? libAccepts).map Note.desc := fun lib hl seg hs =>
    libWalk_segment seg (hg lib hl seg hs) _ (by
      have : seg.length ≤ (segment seg).length := by
        clear hs
        induction seg with
        | nil => simp
        | cons n ns ih => have := bytes_length n; simp [segment_cons] at ih ⊢; omega
      omega)
  unfold checkBuildId
  rw [List.any_eq_true]
  constructor
  · rintro ⟨L, hL, hc⟩
    obtain ⟨lib, hlib, rfl⟩ := List.mem_map.1 hL
    unfold compareBuildIds libOf at hc
    rw [List.any_eq_true] at hc
    obtain ⟨S, hS, hc⟩ := hc
    obtain ⟨seg, hseg, rfl⟩ := List.mem_map.1 hS
    rw [hw lib hlib seg hseg] at hc
    refine ⟨lib, hlib, seg, hseg, ?_⟩
    cases hf : seg.find? libAccepts with
    | none => rw [hf] at hc; simp at hc
    | some n =>
      rw [hf] at hc
      simp only [Option.map_some, Bool.and_eq_true, beq_iff_eq, bne_iff_ne] at hc
      exact ⟨n, rfl, hc.1, fun h => hc.2 h.symm⟩
  · rintro ⟨lib, hlib, seg, hseg, n, hf, hl, hne⟩
    refine ⟨libOf lib, List.mem_map_of_mem hlib, ?_⟩
    unfold compareBuildIds libOf
    rw [List.any_eq_true]
    refine ⟨segment seg, List.mem_map_of_mem hseg, ?_⟩
    rw [hw lib hlib seg hseg, hf]
    simp only [Option.map_some, Bool.and_eq_true, beq_iff_eq, bne_iff_ne]
    exact ⟨hl, fun h => hne h.symm⟩

/-- The negation of C26, one half: with a library of a different build id of the same length loaded, the livepatch
is accepted, be the target loaded or not. -/
theorem C26_accepts_wrong_build_id (id : Bytes) (libs : List (List (List Note)))
    (hg : ∀ lib ∈ libs, ∀ seg ∈ lib, ∀ n ∈ seg, n.Good)
    {lib : List (List Note)} (hl : lib ∈ libs) {seg : List Note} (hs : seg ∈ lib) {n : Note}
    (hn : seg.find? libAccepts = some n) (hlen : n.desc.length = id.length) (hne : n.desc ≠ id) :
    checkBuildId id (libs.map libOf) = true :=
  (C26_check_build_id_iff id libs hg).2 ⟨lib, hl, seg, hs, n, hn, hlen, hne⟩

/-- The other half: when every build id of that length in the process is that of the livepatch, it is refused. -/
theorem C26_refuses_right_build_id (id : Bytes) (libs : List (List (List Note)))
    (hg : ∀ lib ∈ libs, ∀ seg ∈ lib, ∀ n ∈ seg, n.Good)
    (h : ∀ lib ∈ libs, ∀ seg ∈ lib, ∀ n ∈ seg, n.desc.length = id.length → n.desc = id) :
    checkBuildId id (libs.map libOf) = false := by
  rw [Bool.eq_false_iff, Ne, C26_check_build_id_iff id libs hg]
  rintro ⟨lib, hl, seg, hs, n, hf, hlen, hne⟩
  exact hne (h lib hl seg hs n (List.mem_of_find?_eq_some hf) hlen)

/-- What remains of C26: a livepatch is accepted only if some loaded library has a build id of the length of that
of the livepatch, at least 16.  Missing: that it is the same build id, and of the target library. -/
theorem C26_check_build_id_partial (id : Bytes) (libs : List (List (List Note)))
    (hg : ∀ lib ∈ libs, ∀ seg ∈ lib, ∀ n ∈ seg, n.Good) (h : checkBuildId id (libs.map libOf) = true) :
    16 ≤ id.length ∧ ∃ lib ∈ libs, ∃ seg ∈ lib, ∃ n ∈ seg, n.type = 3 ∧ n.name.length = 4
      ∧ n.desc.length = id.length := by
  obtain ⟨lib, hl, seg, hs, n, hf, hlen, -⟩ := (C26_check_build_id_iff id libs hg).1 h
  have ha := List.find?_some hf
  simp only [libAccepts, Bool.and_eq_true, beq_iff_eq, decide_eq_true_eq] at ha
  exact ⟨by omega, lib, hl, seg, hs, n, List.mem_of_find?_eq_some hf, ha.1.1, ha.1.2, hlen⟩

/-- A property note (type 5), then a build id. -/
def sampleNotes (x : UInt8) : List Note :=
  [⟨5, [71, 78, 85, 0], [1, 2, 3, 4, 5]⟩, ⟨3, [71, 78, 85, 0], List.replicate 20 x⟩]

theorem sampleNotes_good (x : UInt8) : ∀ n ∈ sampleNotes x, n.Good := by
  intro n hn
  simp only [sampleNotes, List.mem_cons, List.not_mem_nil, or_false] at hn
  rcases hn with rfl | rfl <;> simp [Note.Good]

/-- Only the target is loaded, with the right build id: refused. -/
example : checkBuildId (List.replicate 20 7) ([[sampleNotes 7]].map libOf) = false := by decide +kernel
/-- Another library is loaded too: accepted, and also when the target is not loaded at all. -/
example : checkBuildId (List.replicate 20 7) ([[sampleNotes 7], [sampleNotes 8]].map libOf) = true
    ∧ checkBuildId (List.replicate 20 7) ([[sampleNotes 8]].map libOf) = true := by decide +kernel
example : checkBuildId (List.replicate 20 7) ([[sampleNotes 8]].map libOf) = true :=
  C26_accepts_wrong_build_id _ [[sampleNotes 8]]
    (by intro lib hl seg hs; simp only [List.mem_singleton] at hl; subst hl
        simp only [List.mem_singleton] at hs; subst hs; exact sampleNotes_good 8)
    (List.mem_singleton.2 rfl) (List.mem_singleton.2 rfl) (n := ⟨3, [71, 78, 85, 0], List.replicate 20 8⟩)
    (by decide +kernel) (by decide +kernel) (by decide +kernel)

/-! ### C27 -/

/-- C27 for livepatches with a 20-byte build id (missing: other lengths, see below): `check_patch_sanity` returns 0 exactly when the process has loaded
an object of the name of the target with that build id, `EBUILDID` exactly when there are objects of that name
but none with that build id, and `ENOTARGETLIB` exactly when there is none of that name. -/
theorem C27_check_patch_sanity_partial (name : Str) (id : Bytes) (hid : id.length = 20) (objs : List Dynobj) :
    ∃ e, checkPatchSanity true name id objs = .ret e
      ∧ (e = 0 ↔ ∃ d ∈ objs, getBasename d.filename = getBasename name ∧ d.buildId = id)
      ∧ (e = EBUILDID ↔ (∃ d ∈ objs, getBasename d.filename = getBasename name)
          ∧ ∀ d ∈ objs, getBasename d.filename = getBasename name → d.buildId ≠ id)
      ∧ (e = ENOTARGETLIB ↔ ∀ d ∈ objs, getBasename d.filename ≠ getBasename name) := by
  refine ⟨_, by rw [checkPatchSanity, if_neg (by simp), sanityLoop_eq _ _ hid], ?_⟩
  simp only [Bool.false_eq_true, false_or]
  by_cases h1 : ∃ d ∈ objs, getBasename d.filename = getBasename name ∧ d.buildId = id
  · rw [if_pos h1]
    obtain ⟨d, hd, hn, hb⟩ := h1
    refine ⟨⟨fun _ => ⟨d, hd, hn, hb⟩, fun _ => rfl⟩, ⟨fun h => absurd h (by decide), ?_⟩,
      ⟨fun h => absurd h (by decide), fun h => absurd hn (h d hd)⟩⟩
    rintro ⟨-, h⟩; exact absurd hb (h d hd hn)
  · rw [if_neg h1]
    by_cases h2 : ∃ d ∈ objs, getBasename d.filename = getBasename name
    · rw [if_pos h2]
      refine ⟨⟨fun h => absurd h (by decide), fun h => absurd h h1⟩,
        ⟨fun _ => ⟨h2, fun d hd hn hb => h1 ⟨d, hd, hn, hb⟩⟩, fun _ => rfl⟩,
        ⟨fun h => absurd h (by decide), ?_⟩⟩
      obtain ⟨d, hd, hn⟩ := h2
      exact fun h => absurd hn (h d hd)
    · rw [if_neg h2]
      refine ⟨⟨fun h => absurd h (by decide), fun h => absurd h h1⟩,
        ⟨fun h => absurd h (by decide), fun h => absurd h.1 h2⟩,
        ⟨fun _ d hd hn => h2 ⟨d, hd, hn⟩, fun _ => rfl⟩⟩

/-- A livepatch with functions its container lacks is refused, whatever the process. -/
theorem C27_functions_must_match (name : Str) (id : Bytes) (objs : List Dynobj) :
    checkPatchSanity false name id objs = .ret EUNKNOWN := rfl

/-- Where C27 fails: a longer build id is compared in its first 20 bytes only, so that no library of the process needs
to have it. -/
theorem C27_long_build_id_prefix_only (name : Str) (id more : Bytes) (hid : id.length = 20) (objs : List Dynobj) :
    checkPatchSanity true name (id ++ more) objs = checkPatchSanity true name id objs := by
  unfold checkPatchSanity
  rw [if_neg (by simp), if_neg (by simp)]
  generalize false = seen
  induction objs generalizing seen with
  | nil => rfl
  | cons d ds ih =>
    have ht : (id ++ more).take buildIdLen = id.take buildIdLen := by
      rw [List.take_append_of_le_length (by rw [hid]; decide)]
    have h1 : ¬ (id ++ more).length < buildIdLen := by rw [List.length_append, hid]; simp [buildIdLen]
    have h2 : ¬ id.length < buildIdLen := by rw [hid]; simp [buildIdLen]
    simp only [sanityLoop, ht, ih, if_neg h1, if_neg h2]

/-- And a shorter one makes the check read past the end of the build id, in any process. -/
theorem C27_short_build_id_ub (name : Str) (id : Bytes) (hid : id.length < 20) (objs : List Dynobj) (ho : objs ≠ []) :
    checkPatchSanity true name id objs = .ub := by
  cases objs with
  | nil => exact absurd rfl ho
  | cons d ds => simp [checkPatchSanity, sanityLoop, buildIdLen, hid]

def samplePath : Str := [47, 97, 47, 108, 46, 115, 111]   -- "/a/l.so"
def sampleName : Str := [108, 46, 115, 111]               -- "l.so"
def sampleOther : Str := [47, 97, 47, 109, 46, 115, 111]  -- "/a/m.so"

example : checkPatchSanity true sampleName (List.replicate 20 7)
      [⟨sampleOther, List.replicate 20 7⟩, ⟨samplePath, List.replicate 20 7⟩] = .ret 0
    ∧ checkPatchSanity true sampleName (List.replicate 20 7)
      [⟨sampleOther, List.replicate 20 7⟩, ⟨samplePath, List.replicate 20 8⟩] = .ret EBUILDID
    ∧ checkPatchSanity true sampleName (List.replicate 20 7)
      [⟨sampleOther, List.replicate 20 7⟩] = .ret ENOTARGETLIB := by decide +kernel

/-! ### C54 -/

/-- C54, where it holds: for an object whose notes before its build id have names and descriptors of even lengths,
the tool stores exactly the build id, whatever else is in the segments. -/
theorem C54_tool_finds_build_id_partial {m : Mem} {pre post : List Note} {b : Note} (old : Bytes)
    (hpre : ∀ n ∈ pre, n.Good ∧ n.type ≠ 3 ∧ n.name.length % 2 = 0 ∧ n.desc.length % 2 = 0
      ∧ n.name.length + n.desc.length + 18 < 2 ^ 32)
    (hb : b.Good) (hbid : b.isBuildId = true) (hlen : b.desc.length = 20)
    {a : Nat} (hm : At m a (segment (pre ++ b :: post)))
    (hsize : (segment (pre ++ b :: post)).length < 2 ^ 32) (more : List (Nat × Nat))
    {fuel : Nat} (hf : pre.length < fuel) :
    toolBuildId m fuel ((a, (segment (pre ++ b :: post)).length) :: more) old = b.desc := by
  simp only [Note.isBuildId, Bool.and_eq_true, beq_iff_eq] at hbid
  have hn : b.name.length = 4 := by rw [hbid.2]; rfl
  have hw := toolWalk_pre pre hpre fuel hf a hm hb hbid.1 (by rw [hn])
  unfold toolBuildId toolFind
  rw [Nat.mod_eq_of_lt hsize, hw, hlen, hn]
  have hm' := hm
  rw [segment_append, segment_cons] at hm'
  obtain ⟨-, -, -, hd⟩ := header_at hb (at_append.1 (at_append.1 hm').2).1
  rw [hn] at hd
  have := (at_append.1 hd).1
  rw [At, hlen] at this
  simp only [show toolAlign 20 = buildIdLen by decide, if_true]
  rw [show buildIdLen = 20 from rfl]
  exact this

/-- Where C54 fails: after a note with a 1-byte descriptor the walk goes astray and a build id that follows is not found,
whichever it is. -/
theorem C54_misses_build_id {m : Mem} {n b : Note} (old : Bytes) (hn : n.Good) (hnt : n.type ≠ 3)
    (hnn : n.name.length = 4) (hnd : n.desc.length = 1) (hbid : b.isBuildId = true) (hlen : b.desc.length = 20)
    {a : Nat} (hm : At m a (segment [n, b])) {fuel : Nat} :
    toolBuildId m fuel [(a, (segment [n, b]).length)] old = old := by
  simp only [Note.isBuildId, Bool.and_eq_true, beq_iff_eq] at hbid
  have hbn : b.name.length = 4 := by rw [hbid.2]; rfl
  have hl : (segment [n, b]).length = 56 := by
    simp [segment, bytes_length, hnn, hnd, hbn, hlen]
  suffices toolWalk m fuel a (a + 56) = none by
    unfold toolBuildId toolFind toolFind; rw [hl, show 56 % 2 ^ 32 = 56 by decide, this]
  cases fuel with
  | zero => rfl
  | succ fuel =>
    rw [segment_cons] at hm
    obtain ⟨hm1, hm2⟩ := at_append.1 hm
    obtain ⟨h0, h4, h8, hd⟩ := header_at hn hm1
    simp only [toolWalk, h0, h4, h8, ntGnuBuildId, hnt, if_false, hnn, hnd]
    rw [show (toolAlign 1 + toolAlign 4 + 12) % 2 ^ 32 = 18 by decide, if_pos (by omega)]
    -- the bytes the next header is read from
    rw [hnn, hnd] at hd
    have hp : At m (a + 12 + (4 + 3) / 4 * 4 + 1) (pad 1) := by have := (at_append.1 hd).2; rwa [hnd] at this
    rw [bytes_length, hnn, hnd] at hm2
    have e : segment [b] = le 4 4 ++ (le 4 20 ++ (le 4 3 ++ (b.name ++ (b.desc ++ pad 20)))) := by
      simp [segment, Note.bytes, hbn, hlen, hbid.1, show pad 4 = [] from rfl]
    rw [e] at hm2
    obtain ⟨m0, hm3⟩ := at_append.1 hm2
    obtain ⟨m4, hm4⟩ := at_append.1 hm3
    obtain ⟨m8, -⟩ := at_append.1 hm4
    simp only [At, le_length] at m0 m4 m8
    rw [show pad 1 = [0, 0, 0] from rfl] at hp
    simp only [At, List.length_cons, List.length_nil] at hp
    simp only [show le 4 4 = [4, 0, 0, 0] by decide, show le 4 20 = [20, 0, 0, 0] by decide,
      show le 4 3 = [3, 0, 0, 0] by decide, Mem.load, List.cons.injEq] at m0 m4 m8 hp
    cases fuel with
    | zero => rfl
    | succ fuel =>
      have l0 : leVal (m.load (a + 18) 4) = 4 * 65536 := by
        simp only [Mem.load]
        rw [show m (a + 18) = 0 from hp.2.1, show m (a + 18 + 1) = 0 from hp.2.2.1,
          show m (a + 18 + 1 + 1) = 4 from m0.1, show m (a + 18 + 1 + 1 + 1) = 0 from m0.2.1]
        decide
      have l4 : leVal (m.load (a + 18 + 4) 4) = 20 * 65536 := by
        simp only [Mem.load]
        rw [show m (a + 18 + 4) = 0 from m0.2.2.1, show m (a + 18 + 4 + 1) = 0 from m0.2.2.2.1,
          show m (a + 18 + 4 + 1 + 1) = 20 from m4.1, show m (a + 18 + 4 + 1 + 1 + 1) = 0 from m4.2.1]
        decide
      have l8 : leVal (m.load (a + 18 + 8) 4) = 3 * 65536 := by
        simp only [Mem.load]
        rw [show m (a + 18 + 8) = 0 from m4.2.2.1, show m (a + 18 + 8 + 1) = 0 from m4.2.2.2.1,
          show m (a + 18 + 8 + 1 + 1) = 3 from m8.1, show m (a + 18 + 8 + 1 + 1 + 1) = 0 from m8.2.1]
        decide
      simp only [toolWalk, l0, l4, l8, ntGnuBuildId]
      rw [if_neg (by decide), show (toolAlign (20 * 65536) + toolAlign (4 * 65536) + 12) % 2 ^ 32 = 1572876 by decide,
        if_neg (by omega)]

/-- And an 18-byte build id is stored as a 20-byte one, its padding included. -/
theorem C54_pads_short_build_id {m : Mem} {b : Note} (old : Bytes) (hb : b.Good) (hbid : b.isBuildId = true)
    (hlen : b.desc.length = 18) {a : Nat} (hm : At m a (segment [b])) {fuel : Nat} (hf : 0 < fuel) :
    toolBuildId m fuel [(a, (segment [b]).length)] old = b.desc ++ [0, 0] := by
  simp only [Note.isBuildId, Bool.and_eq_true, beq_iff_eq] at hbid
  have hn : b.name.length = 4 := by rw [hbid.2]; rfl
  have hl : (segment [b]).length = 36 := by simp [segment, bytes_length, hn, hlen]
  have hw := toolWalk_pre (post := []) [] (by simp) fuel hf a hm hb hbid.1 (by rw [hn])
  simp only [List.nil_append] at hw
  unfold toolBuildId toolFind
  rw [Nat.mod_eq_of_lt (by omega), hw, hlen, hn]
  rw [segment_cons] at hm
  obtain ⟨-, -, -, hd⟩ := header_at hb (at_append.1 hm).1
  rw [hn, hlen, show pad 18 = [0, 0] from rfl] at hd
  simp only [At, List.length_append, hlen, List.length_cons, List.length_nil] at hd
  simp only [show toolAlign 18 = buildIdLen by decide, if_true]
  exact hd

/-- C54: a build id of any other length is not taken, and what the tool knew before (nothing) stays. -/
theorem C54_other_length_ignored {m : Mem} {b : Note} (old : Bytes) (hb : b.Good) (hbid : b.isBuildId = true)
    (h18 : b.desc.length ≠ 18) (h20 : b.desc.length ≠ 20) {post : List Note} {a : Nat} (hm : At m a (segment (b :: post)))
    (hsize : (segment (b :: post)).length < 2 ^ 31) (more : List (Nat × Nat)) {fuel : Nat} (hf : 0 < fuel) :
    toolBuildId m fuel ((a, (segment (b :: post)).length) :: more) old = old := by
  simp only [Note.isBuildId, Bool.and_eq_true, beq_iff_eq] at hbid
  have hn : b.name.length = 4 := by rw [hbid.2]; rfl
  have hw := toolWalk_pre (post := post) [] (by simp) fuel hf a hm hb hbid.1 (by rw [hn])
  simp only [List.nil_append] at hw
  have hl : b.desc.length ≤ (segment (b :: post)).length := by
    rw [segment_cons, List.length_append, bytes_length]; omega
  have hne : ¬ toolAlign b.desc.length = buildIdLen := by
    unfold toolAlign
    rw [Nat.mod_eq_of_lt (by omega)]
    show ¬ _ = 20
    omega
  unfold toolBuildId toolFind
  rw [Nat.mod_eq_of_lt (by omega), hw]
  simp only [if_neg hne]

example := C54_other_length_ignored (m := Mem.store (fun _ => 0) 4096 (segment [⟨3, [71, 78, 85, 0], List.replicate 16 7⟩]))
  (b := ⟨3, [71, 78, 85, 0], List.replicate 16 7⟩) (post := []) [] ⟨by decide, by decide, by decide⟩ (by decide +kernel) (by decide +kernel)
  (by decide +kernel) (a := 4096) (by unfold At; decide +kernel) (by decide +kernel) [] (fuel := 9) (by decide)

/-- Notes in memory, as the linker lays them out: found, missed, and padded. -/
example : toolBuildId (Mem.store (fun _ => 0) 4096
      (segment [⟨5, [71, 78, 85, 0], [1, 2, 3, 4, 5, 6]⟩, ⟨3, [71, 78, 85, 0], List.replicate 20 7⟩])) 9
      [(4096, 60)] [] = List.replicate 20 7
    ∧ toolBuildId (Mem.store (fun _ => 0) 4096
      (segment [⟨5, [71, 78, 85, 0], [1]⟩, ⟨3, [71, 78, 85, 0], List.replicate 20 7⟩])) 9
      [(4096, 56)] [] = []
    ∧ toolBuildId (Mem.store (fun _ => 0) 4096
      (segment [⟨3, [71, 78, 85, 0], List.replicate 18 7⟩])) 9
      [(4096, 36)] [] = List.replicate 18 7 ++ [0, 0] := by decide +kernel

/-! ### Further concrete cases -/

theorem sampleLibs_good (xs : List UInt8) : ∀ lib ∈ xs.map (fun x => [sampleNotes x]), ∀ seg ∈ lib, ∀ n ∈ seg, n.Good := by
  intro lib hl seg hs
  obtain ⟨x, -, rfl⟩ := List.mem_map.1 hl
  rw [List.mem_singleton.1 hs]; exact sampleNotes_good x

example := C26_check_build_id_partial (List.replicate 20 7) ([7, 8].map fun x => [sampleNotes x]) (sampleLibs_good _) (by decide +kernel)
example := C26_check_build_id_iff (List.replicate 20 7) ([7, 8].map fun x => [sampleNotes x]) (sampleLibs_good _)
example : checkBuildId (List.replicate 20 7) (([7, 7].map fun x => [sampleNotes x]).map libOf) = false :=
  C26_refuses_right_build_id _ _ (sampleLibs_good _) (by decide)
example := C27_check_patch_sanity_partial sampleName (List.replicate 20 7) (by decide)
  [⟨sampleOther, List.replicate 20 7⟩, ⟨samplePath, List.replicate 20 8⟩]
example := C27_functions_must_match sampleName (List.replicate 20 7) [⟨samplePath, List.replicate 20 7⟩]
example := C27_long_build_id_prefix_only sampleName (List.replicate 20 7) [1, 2, 3] (by decide) [⟨samplePath, List.replicate 20 7⟩]
example := C27_short_build_id_ub sampleName (List.replicate 16 7) (by decide) [⟨samplePath, List.replicate 20 7⟩] (by decide)
example := C54_tool_finds_build_id_partial
  (m := Mem.store (fun _ => 0) 4096
    (segment ([⟨5, [71, 78, 85, 0], [1, 2, 3, 4, 5, 6]⟩] ++ ⟨3, [71, 78, 85, 0], List.replicate 20 7⟩ :: [⟨1, [1], [2]⟩])))
  (pre := [⟨5, [71, 78, 85, 0], [1, 2, 3, 4, 5, 6]⟩]) (post := [⟨1, [1], [2]⟩]) (b := ⟨3, [71, 78, 85, 0], List.replicate 20 7⟩)
  [] (by intro n hn; rw [List.mem_singleton.1 hn]; simp [Note.Good]) (by simp [Note.Good]) (by decide) (by decide) (a := 4096)
  (by unfold At; decide +kernel) (by decide +kernel) [] (fuel := 9) (by decide)
example := C54_misses_build_id
  (m := Mem.store (fun _ => 0) 4096 (segment [⟨5, [71, 78, 85, 0], [1]⟩, ⟨3, [71, 78, 85, 0], List.replicate 20 7⟩]))
  (n := ⟨5, [71, 78, 85, 0], [1]⟩) (b := ⟨3, [71, 78, 85, 0], List.replicate 20 7⟩) [9] (by simp [Note.Good])
  (by decide) (by decide) (by decide) (by decide) (by decide) (a := 4096) (by unfold At; decide +kernel) (fuel := 9)
example := C54_pads_short_build_id
  (m := Mem.store (fun _ => 0) 4096 (segment [⟨3, [71, 78, 85, 0], List.replicate 18 7⟩]))
  (b := ⟨3, [71, 78, 85, 0], List.replicate 18 7⟩) [] (by simp [Note.Good]) (by decide) (by decide) (a := 4096)
  (by unfold At; decide +kernel) (fuel := 9) (by decide)

end Verif.BuildId
