import Verif.Dump.Lemmas
import Verif.Metadata.Props

/-! What a dump shows of the metadata. -/

namespace Verif.Dump

open Verif.Metadata (Bytes PRef Parsed)
open Verif.Metadata.Spec (cstring)

/-- The lines of a dump. -/
def lines (id file build name : Str) (vs : List U) (ws : List R) (nu nr : Nat) : List Str :=
  [lit "patch id: " ++ id, lit "so filename: " ++ file, [], lit "* build id: " ++ build, lit "* name: " ++ name,
    lit "* units: " ++ dec32 nu] ++ (vs.flatMap unitLines ++ ([] :: (lit "static references: " ++ dec32 nr) :: ws.flatMap refLines))

theorem buildid_some {b : Bytes} {s : Str} (h : buildid b = some s) : 20 ≤ b.length ∧ s = Text.buildidToString (b.take 20) := by
  unfold buildid at h
  split at h
  · simp at h
  · simp at h; exact ⟨by omega, h.symm⟩

/-- What was printed. -/
structure Printed (q : Parsed) (o : Str) (file name : Str) (vs : List U) (ws : List R) : Prop where
  id : 20 ≤ q.patchId.length
  build : 20 ≤ q.buildId.length
  hfile : cstring q.soFilename = some file
  hname : cstring q.name = some name
  units : q.units.map (fun u => (cstring u.oldFname, cstring u.newFname, u.oldFaddr)) =
    vs.map (fun v => (some v.1, some v.2.1, v.2.2))
  refs : q.refs.map (fun r => (cstring r.referenceName, r.targetOffset, decide (r.tls ≠ 0))) =
    ws.map (fun v => (some v.1, v.2.1, v.2.2))
  out : o = unlines (lines (Text.buildidToString (q.patchId.take 20)) file (Text.buildidToString (q.buildId.take 20)) name vs ws
    q.units.length q.refs.length)

theorem dump_printed {q : Parsed} {o : Str} (h : dumpMetadata q false = some o) :
    ∃ file name vs ws, Printed q o file name vs ws := by
  unfold dumpMetadata at h
  simp only [Option.bind_eq_bind, Option.bind_eq_some_iff, Option.some.injEq, Bool.false_eq_true, if_false] at h
  obtain ⟨id, h1, build, h2, refs, h3, file, h4, name, h5, units, h6, h7⟩ := h
  obtain ⟨l1, rfl⟩ := buildid_some h1
  obtain ⟨l2, rfl⟩ := buildid_some h2
  obtain ⟨ws, w1, rfl⟩ := dumpRefs_eq _ _ h3
  obtain ⟨vs, v1, rfl⟩ := dumpUnits_eq _ _ h6
  rw [cstr_eq] at h4 h5
  refine ⟨file, name, vs, ws, l1, l2, h4, h5, v1, w1, ?_⟩
  rw [← h7]
  unfold lines
  rw [unlines_append, unlines_append]
  simp [unlines, nl]

theorem lines_plain {q : Parsed} {o file name vs ws} (hp : Printed q o file name vs ws) (hq : Plain q) :
    ∀ l ∈ lines (Text.buildidToString (q.patchId.take 20)) file (Text.buildidToString (q.buildId.take 20)) name vs ws
      q.units.length q.refs.length, (10 : UInt8) ∉ l := by
  have two : ∀ s : String, ∀ t : Str, (10 : UInt8) ∉ lit s → (10 : UInt8) ∉ t → (10 : UInt8) ∉ lit s ++ t := by
    intro s t h1 h2
    simp only [List.mem_append, not_or]
    exact ⟨h1, h2⟩
  intro l hl
  unfold lines at hl
  simp only [List.mem_append, List.mem_cons, List.not_mem_nil, or_false, List.mem_flatMap] at hl
  rcases hl with (rfl | rfl | rfl | rfl | rfl | rfl) | ⟨v, hv, hl⟩ | rfl | rfl | ⟨w, hw, hl⟩
  · exact two _ _ (by decide +kernel) (buildid_line _)
  · exact two _ _ (by decide +kernel) (hq.file _ hp.hfile)
  · simp
  · exact two _ _ (by decide +kernel) (buildid_line _)
  · exact two _ _ (by decide +kernel) (hq.name _ hp.hname)
  · exact two _ _ (by decide +kernel) (dec32_line _)
  · have hm : (some v.1, some v.2.1, v.2.2) ∈ q.units.map (fun u => (cstring u.oldFname, cstring u.newFname, u.oldFaddr)) := by
      rw [hp.units]; exact List.mem_map_of_mem (f := fun v : U => (some v.1, some v.2.1, v.2.2)) hv
    obtain ⟨u, hu, he⟩ := List.mem_map.mp hm
    simp only [Prod.mk.injEq] at he
    obtain ⟨p1, p2⟩ := hq.units u hu
    simp only [unitLines, List.mem_cons, List.not_mem_nil, or_false] at hl
    rcases hl with rfl | rfl | rfl | rfl
    · simp
    · exact two _ _ (by decide +kernel) (p1 _ he.1)
    · exact two _ _ (by decide +kernel) (p2 _ he.2.1)
    · exact two _ _ (by decide +kernel) (ptr_line _)
  · simp
  · exact two _ _ (by decide +kernel) (dec32_line _)
  · have hm : (some w.1, w.2.1, w.2.2) ∈ q.refs.map (fun r => (cstring r.referenceName, r.targetOffset, decide (r.tls ≠ 0))) := by
      rw [hp.refs]; exact List.mem_map_of_mem (f := fun v : R => (some v.1, v.2.1, v.2.2)) hw
    obtain ⟨u, hu, he⟩ := List.mem_map.mp hm
    simp only [Prod.mk.injEq] at he
    have p1 := hq.refs u hu
    simp only [refLines, List.mem_cons, List.not_mem_nil, or_false] at hl
    rcases hl with rfl | rfl | rfl | rfl | rfl
    · exact two _ _ (by decide +kernel) (p1 _ he.1)
    · exact two _ _ (by decide +kernel) (hex_line _)
    · exact two _ _ (by decide +kernel) (hex_line _)
    · refine two _ _ (by decide +kernel) ?_
      cases w.2.2 <;> decide +kernel
    · simp

/-! ### C113: what is shown -/

/-- **C113, what a dump shows.** Two metadata, of names without line ends, have the same dump only if they are alike: the first 20 bytes
of the ids, the names and addresses of units, and name, target offset and kind of references can be read off the dump.  Missing, and
not shown: see `C113_hidden`. -/
theorem C113_shown_partial (q q' : Parsed) (hq : Plain q) (hq' : Plain q') (o o' : Str) (h : dumpMetadata q false = some o)
    (h' : dumpMetadata q' false = some o') : o = o' → Alike q q' := by
  obtain ⟨file, name, vs, ws, hp⟩ := dump_printed h
  obtain ⟨file', name', vs', ws', hp'⟩ := dump_printed h'
  intro he
  rw [hp.out, hp'.out] at he
  have hl := unlines_inj (lines_plain hp hq) (lines_plain hp' hq') he
  unfold lines at hl
  simp only [List.cons_append, List.nil_append, List.cons.injEq, true_and] at hl
  obtain ⟨e1, e2, e3, e4, -, e5⟩ := hl
  obtain ⟨u, r⟩ := units_inj e5
  have r := refs_inj r
  refine ⟨buildidToString_inj (List.append_cancel_left e1), ?_, buildidToString_inj (List.append_cancel_left e3), ?_, ?_, ?_⟩
  · rw [hp.hfile, hp'.hfile, List.append_cancel_left e2]
  · rw [hp.hname, hp'.hname, List.append_cancel_left e4]
  · rw [hp.units, hp'.units, u]
  · rw [hp.refs, hp'.refs, r]

/-- **C113 is false of the code.** Whatever else differs between two metadata that are alike cannot be seen: bytes 20 to 31 of
the patch id, the dependencies, the names of the variables referred to, and the offsets in the patch. -/
theorem C113_hidden (q q' : Parsed) (ha : Alike q q') (o o' : Str) (only : Bool) (h : dumpMetadata q only = some o)
    (h' : dumpMetadata q' only = some o') : o = o' := by
  have hr : ∀ {rs rs' : List PRef}, rs.map (fun r => (cstring r.referenceName, r.targetOffset, decide (r.tls ≠ 0))) =
      rs'.map (fun r => (cstring r.referenceName, r.targetOffset, decide (r.tls ≠ 0))) → dumpRefs rs = dumpRefs rs' := by
    intro rs
    induction rs with
    | nil => intro rs' he; cases rs' with
      | nil => rfl
      | cons r rs' => simp at he
    | cons r rs ih => intro rs' he; cases rs' with
      | nil => simp at he
      | cons r' rs' =>
        simp only [List.map_cons, List.cons.injEq, Prod.mk.injEq] at he
        obtain ⟨⟨h1, h2, h3⟩, h4⟩ := he
        have h3 : (r.tls ≠ 0) = (r'.tls ≠ 0) := propext (by simpa using congrArg (· = true) h3)
        simp only [dumpRefs, cstr_eq, h1, h2, ih h4]
        simp only [h3]
  have hu : ∀ {us us' : List Metadata.PUnit}, us.map (fun u => (cstring u.oldFname, cstring u.newFname, u.oldFaddr)) =
      us'.map (fun u => (cstring u.oldFname, cstring u.newFname, u.oldFaddr)) → dumpUnits us = dumpUnits us' := by
    intro us
    induction us with
    | nil => intro us' he; cases us' with
      | nil => rfl
      | cons r rs' => simp at he
    | cons r rs ih => intro us' he; cases us' with
      | nil => simp at he
      | cons r' rs' =>
        simp only [List.map_cons, List.cons.injEq, Prod.mk.injEq] at he
        obtain ⟨⟨h1, h2, h3⟩, h4⟩ := he
        simp only [dumpUnits, cstr_eq, h1, h2, h3, ih h4]
  have hn : q.units.length = q'.units.length := by simpa using congrArg List.length ha.units
  have hm : q.refs.length = q'.refs.length := by simpa using congrArg List.length ha.refs
  have hb : ∀ {b b' : Bytes} {s s' : Str}, b.take 20 = b'.take 20 → buildid b = some s → buildid b' = some s' → s = s' := by
    intro b b' s s' e h1 h2
    rw [(buildid_some h1).2, (buildid_some h2).2, e]
  unfold dumpMetadata at h h'
  simp only [Option.bind_eq_bind, Option.bind_eq_some_iff] at h h'
  obtain ⟨id, h1, build, h2, refs, h3, h⟩ := h
  obtain ⟨id', h1', build', h2', refs', h3', h'⟩ := h'
  have e1 := hb ha.id h1 h1'
  have e2 := hb ha.build h2 h2'
  rw [hr ha.refs, h3'] at h3
  simp only [Option.some.injEq] at h3
  rw [cstr_eq, cstr_eq, ha.file, ha.name, hu ha.units, hn, hm, e1, e2, ← h3] at h
  rw [cstr_eq, cstr_eq] at h'
  rw [h] at h'
  simpa using h'

/-- **C113, a wrong line.** What is called the offset in the patch is that of the target, for each reference. -/
theorem C113_patch_offset (q : Parsed) (o : Str) (h : dumpMetadata q false = some o) (off : Nat → Nat) :
    dumpMetadata { q with refs := q.refs.map fun r => { r with patchOffset := off r.patchOffset } } false = some o := by
  have hr : ∀ rs : List PRef, dumpRefs (rs.map fun r => { r with patchOffset := off r.patchOffset }) = dumpRefs rs := by
    intro rs
    induction rs with
    | nil => rfl
    | cons r rs ih => simp only [List.map_cons, dumpRefs, ih]
  rw [← h]
  unfold dumpMetadata
  simp only [hr, List.length_map]

/-- **C113, undefined behaviour.** For a build id shorter than 20 bytes memory behind it is read. -/
theorem C113_short_build_id (q : Parsed) (only : Bool) (h : q.buildId.length < 20) : dumpMetadata q only = none := by
  unfold dumpMetadata
  simp only [Option.bind_eq_bind]
  have : buildid q.buildId = none := by unfold buildid; rw [if_pos h]
  rw [this]
  cases buildid q.patchId <;> simp

theorem dumpUnits_defined (us : List Metadata.PUnit) (h : ∀ u ∈ us, (cstring u.oldFname).isSome ∧ (cstring u.newFname).isSome) :
    ∃ o, dumpUnits us = some o := by
  induction us with
  | nil => exact ⟨[], rfl⟩
  | cons u us ih =>
    obtain ⟨o, ho⟩ := ih (fun v hv => h v (by simp [hv]))
    obtain ⟨h1, h2⟩ := h u (by simp)
    obtain ⟨a, ha⟩ := Option.isSome_iff_exists.mp h1
    obtain ⟨b, hb⟩ := Option.isSome_iff_exists.mp h2
    simp only [dumpUnits, cstr_eq, ha, hb, ho, Option.bind_eq_bind, Option.bind_some]
    exact ⟨_, rfl⟩

theorem dumpRefs_defined (rs : List PRef) (h : ∀ r ∈ rs, (cstring r.referenceName).isSome) : ∃ o, dumpRefs rs = some o := by
  induction rs with
  | nil => exact ⟨[], rfl⟩
  | cons u us ih =>
    obtain ⟨o, ho⟩ := ih (fun v hv => h v (by simp [hv]))
    obtain ⟨a, ha⟩ := Option.isSome_iff_exists.mp (h u (by simp))
    simp only [dumpRefs, cstr_eq, ha, ho, Option.bind_eq_bind, Option.bind_some]
    exact ⟨_, rfl⟩

/-- **C113, packed metadata.** Metadata the packer made, with a build id of 20 bytes or more, is dumped. -/
theorem C113_packed_partial {p : Metadata.Patch} (hg : Metadata.Spec.Good p) (hb : 20 ≤ p.buildId.length) {path : Str}
    (h0 : (0 : UInt8) ∉ path) (hne : path ≠ []) {b : Bytes} (hx : Metadata.extract (Metadata.packApply p) path = .ok b) (c0 : Bytes)
    (only : Bool) : ∃ q st o, Metadata.parse (Metadata.mem b) c0 = .ok (q, st) ∧ dumpMetadata q only = some o := by
  obtain ⟨q, st, h1, h2, -⟩ := Metadata.C13_roundtrip hg h0 hne hx [] c0
  rw [List.append_nil] at h1
  have hu : ∃ o, dumpUnits q.units = some o := by
    refine dumpUnits_defined _ fun u hu => ?_
    obtain ⟨i, hi, rfl⟩ := List.mem_iff_getElem.mp hu
    obtain ⟨e1, e2, -⟩ := h2.units.2 i hi (h2.units.1 ▸ hi)
    rw [e1, e2]; exact ⟨rfl, rfl⟩
  have hr : ∃ o, dumpRefs q.refs = some o := by
    refine dumpRefs_defined _ fun r hr => ?_
    obtain ⟨i, hi, rfl⟩ := List.mem_iff_getElem.mp hr
    obtain ⟨-, e2, -⟩ := h2.refs.2 i hi (h2.refs.1 ▸ hi)
    rw [e2]; rfl
  obtain ⟨us, hu⟩ := hu
  obtain ⟨rs, hr⟩ := hr
  have i1 : buildid q.patchId = some (Text.buildidToString (q.patchId.take 20)) := by
    unfold buildid; rw [if_neg (by rw [h2.id, hg.id]; omega)]
  have i2 : buildid q.buildId = some (Text.buildidToString (q.buildId.take 20)) := by
    unfold buildid; rw [if_neg (by rw [h2.buildId]; omega)]
  refine ⟨q, st, ?_⟩
  unfold dumpMetadata
  simp only [i1, i2, hu, hr, cstr_eq, h2.path, h2.name, Option.bind_eq_bind, Option.bind_some]
  cases only
  · exact ⟨_, h1, by simp only [Bool.false_eq_true, if_false]; rfl⟩
  · exact ⟨_, h1, by simp only [if_true]; rfl⟩

/-! ### C114: `--buildid` -/

/-- **C114 is false of the code.** With `--buildid` there is always more than the build id: the references are printed too. -/
theorem C114_more (q : Parsed) (comments : Option Bytes) (o : Str) (h : runDump q true comments = some o) :
    ∃ rest, o = Text.buildidToString (q.buildId.take 20) ++ nl ++ (nl ++ lit "static references: " ++ rest) := by
  unfold runDump dumpMetadata at h
  simp only [Option.bind_eq_bind, Option.bind_eq_some_iff, Option.some.injEq, if_true] at h
  obtain ⟨a, ⟨id, h1, build, h2, refs, h3, h4⟩, b, h5, h6⟩ := h
  obtain ⟨-, rfl⟩ := buildid_some h2
  refine ⟨dec32 q.refs.length ++ nl ++ refs ++ b, ?_⟩
  rw [← h6, ← h4]
  simp

/-- The first line of a text. -/
def firstLine (s : Str) : Str := s.takeWhile (· != 10)

/-- **C114, what is true.** The first line with `--buildid` is the build id. -/
theorem C114_first_line_partial (q : Parsed) (comments : Option Bytes) (o : Str) (h : runDump q true comments = some o) :
    firstLine o = Text.buildidToString (q.buildId.take 20) := by
  obtain ⟨rest, rfl⟩ := C114_more q comments o h
  unfold firstLine
  have hl := buildid_line (q.buildId.take 20)
  rw [List.append_assoc, List.takeWhile_append_of_pos]
  · simp [nl]
  · intro x hx
    simp only [bne_iff_ne, ne_eq]
    intro he; exact hl (he ▸ hx)

/-! ### Cases -/

def exParsed : Parsed :=
  ⟨1, List.replicate 32 0xAB, lit "/p/lp.so" ++ [0], List.replicate 20 0x1F, lit "libc.so.6" ++ [0],
    [⟨lit "f" ++ [0], lit "f_lp" ++ [0], 0x1234⟩, ⟨lit "g" ++ [0], lit "g_lp" ++ [0], 0⟩], [],
    [⟨lit "v" ++ [0], lit "ulpr_v" ++ [0], 0x40, 0x88, 1⟩]⟩

/-- The text, with the wrong offset. -/
example : dumpMetadata exParsed false = some (lit ("patch id: abababababababababababababababababababab\nso filename: /p/lp.so\n\n" ++
    "* build id: 1f1f1f1f1f1f1f1f1f1f1f1f1f1f1f1f1f1f1f1f\n* name: libc.so.6\n* units: 2\n\n** old_fname: f\n** new_fname: f_lp\n" ++
    "** old_faddr: 0x1234\n\n** old_fname: g\n** new_fname: g_lp\n** old_faddr: (nil)\n\nstatic references: 1\n*** ref_name: ulpr_v\n" ++
    "*** target_offset: 40\n*** patch_offset: 40\n*** tls variable: yes\n\n")) := by decide +kernel

theorem exPlain : Plain exParsed := by
  have one : ∀ b : Bytes, ((cstring b).getD []).contains 10 = false → OneLine (cstring b) := by
    intro b hb t ht hm
    rw [ht] at hb
    simp [hm] at hb
  refine ⟨one _ (by decide +kernel), one _ (by decide +kernel), ?_, ?_⟩
  · intro u hu
    simp [exParsed] at hu
    rcases hu with rfl | rfl <;> exact ⟨one _ (by decide +kernel), one _ (by decide +kernel)⟩
  · intro r hr
    simp [exParsed] at hr
    subst hr
    exact one _ (by decide +kernel)

/-- Another patch, with another id, offset and dependency, that looks the same. -/
def exOther : Parsed :=
  { exParsed with
    patchId := List.replicate 20 0xAB ++ List.replicate 12 7
    deps := [List.replicate 32 1]
    refs := [⟨lit "w" ++ [0], lit "ulpr_v" ++ [0], 0x40, 0x99, 1⟩] }

example : dumpMetadata exOther false = dumpMetadata exParsed false := by decide +kernel

example : (runDump exParsed true (some (lit "bsc#1" ++ [10, 0]))).map firstLine =
    some (lit "1f1f1f1f1f1f1f1f1f1f1f1f1f1f1f1f1f1f1f1f") := by decide +kernel

/-- The packer does not limit build ids to 20 bytes or more. -/
example : dumpMetadata { exParsed with buildId := [1, 2, 3] } true = none := C113_short_build_id _ _ (by decide)

/-! ### Further cases -/

theorem ex_dump : ∃ o, dumpMetadata exParsed false = some o ∧ dumpMetadata exOther false = some o := by
  have h : dumpMetadata exOther false = dumpMetadata exParsed false := by decide +kernel
  cases ho : dumpMetadata exParsed false with
  | none => exact absurd ho (by decide +kernel)
  | some o => exact ⟨o, rfl, h.trans ho⟩

theorem exPlain_other : Plain exOther := ⟨exPlain.1, exPlain.2, exPlain.3, by
  intro r hr
  simp [exOther] at hr
  subst hr
  exact exPlain.4 ⟨lit "v" ++ [0], lit "ulpr_v" ++ [0], 0x40, 0x88, 1⟩ (List.mem_singleton.2 rfl)⟩

theorem exAlike : Alike exParsed exOther := by
  obtain ⟨o, h1, h2⟩ := ex_dump
  exact C113_shown_partial exParsed exOther exPlain exPlain_other o o h1 h2 rfl

example : ∀ o o' only, dumpMetadata exParsed only = some o → dumpMetadata exOther only = some o' → o = o' :=
  fun o o' only => C113_hidden exParsed exOther exAlike o o' only

example : ∃ o, dumpMetadata { exParsed with refs := exParsed.refs.map fun r => { r with patchOffset := r.patchOffset + 8 } } false = some o := by
  obtain ⟨o, h, -⟩ := ex_dump
  exact ⟨o, C113_patch_offset exParsed o h (· + 8)⟩

example : ∃ o, runDump exParsed true (some (lit "bsc#1" ++ [10, 0])) = some o ∧ firstLine o = Text.buildidToString (List.replicate 20 0x1F) ∧
    ∃ rest, o = Text.buildidToString (List.replicate 20 0x1F) ++ nl ++ (nl ++ lit "static references: " ++ rest) := by
  cases h : runDump exParsed true (some (lit "bsc#1" ++ [10, 0])) with
  | none => exact absurd h (by decide +kernel)
  | some o => exact ⟨o, rfl, C114_first_line_partial _ _ _ h, C114_more _ _ _ h⟩

end Verif.Dump
