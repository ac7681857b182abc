import Verif.Check.Spec
import Verif.Metadata.Props

/-! `ulp check`: what its exit status says, and what it does to the process. -/

namespace Verif.Check

open Verif.Metadata (Bytes)
open Verif.Metadata.Spec (Good IsApply)

theorem checkApplied_cases (p : Proc) : checkApplied p = 0 ∨ checkApplied p = 1 := by
  unfold checkApplied; split
  · exact Or.inl rfl
  · split
    · exact Or.inr rfl
    · exact Or.inl rfl

/-- The ways to go on once the metadata is parsed. -/
theorem afterParse_cases (w : World) (id : Bytes) (p : Proc) :
    (afterParse w id p).1 = .ret (-1) ∨
      (afterParse w id p).1 = .ret (checkApplied (setId id { p with held := true })) ∧ AllWell { w with hijack := 0 } ∧
        w.hijack ≤ 0 := by
  unfold afterParse
  by_cases h1 : Text.isnumber w.pid = true
  case neg => left; simp [h1]
  by_cases h2 : w.init = 0
  case neg => left; simp [h1, h2]
  by_cases h3 : w.sanity = 0
  case neg => left; simp [h1, h2, h3]
  by_cases h4 : w.hijack = 265
  case pos => left; simp [h1, h2, h3, h4]
  by_cases h5 : w.hijack > 0
  case pos => left; simp [h1, h2, h3, h4, h5]
  by_cases h6 : w.restore = 0
  case neg => left; simp [h1, h2, h3, h4, h5, h6]
  by_cases h7 : w.write = true
  case neg => left; simp [h1, h2, h3, h4, h5, h6, h7, patchApplied]
  by_cases h8 : w.run = 0
  case neg => left; simp [h1, h2, h3, h4, h5, h6, h7, h8, patchApplied]
  right
  refine ⟨by simp [h1, h2, h3, h4, h5, h6, h7, h8, patchApplied], ⟨h1, h2, h3, rfl, h7, h8, h6⟩, by omega⟩

theorem afterParse_well (w : World) (id : Bytes) (p : Proc) (hw : AllWell w) :
    (afterParse w id p).1 = .ret (checkApplied (setId id { p with held := true })) := by
  unfold afterParse
  simp [hw.pid, hw.init, hw.sanity, hw.hijack, hw.restore, hw.write, hw.run, patchApplied]

theorem setId_take (id : Bytes) (hid : id.length = 32) (p : Proc) : (setId id p).buffer.take 32 = id := by
  unfold setId
  simp only
  rw [List.take_of_length_le (l := id) (by omega), List.take_append_of_le_length (by omega),
    List.take_of_length_le (by omega)]

theorem readFromMem_length {cap count : Nat} {s : Metadata.Src} {st st' : Metadata.St} {got : Bytes}
    (h : Metadata.readFromMem cap count s st = .ok (got, st')) : got.length ≤ cap := by
  unfold Metadata.readFromMem at h
  simp only at h
  generalize (if (count : Int) > (s.bytes.length : Int) - st.cur then (s.bytes.length : Int) - st.cur else count) = f at h
  split at h
  · simp at h
  · rename_i hn
    simp only [Metadata.Res.ok.injEq, Prod.mk.injEq] at h
    rw [← h.1, List.length_take]
    omega

/-- A parsed patch id has 32 bytes. -/
theorem parse_id {s : Metadata.Src} {c0 q st} (h : Metadata.parse s c0 = .ok (q, st)) : q.patchId.length = 32 := by
  unfold Metadata.parse Metadata.parseMetadata at h
  obtain ⟨hd, st1, hh, h⟩ := Metadata.bind_ok h
  have hq : q.patchId = hd.2.1 := by
    obtain ⟨type, id, path, buildId, name⟩ := hd
    simp only at h
    split at h
    · rw [Metadata.pure_def] at h
      simp at h
      rw [← h.1]
    · obtain ⟨b, st2, -, h⟩ := Metadata.bind_ok h
      rw [Metadata.pure_def] at h
      simp at h
      rw [← h.1]
  unfold Metadata.readHeader at hh
  obtain ⟨ty, st2, h2, hh⟩ := Metadata.bind_ok hh
  obtain ⟨x3, st3, h3, hh⟩ := Metadata.bind_ok hh
  obtain ⟨x4, st4, h4, hh⟩ := Metadata.bind_ok hh
  obtain ⟨x5, st5, h5, hh⟩ := Metadata.bind_ok hh
  have hid : hd.2.1 = x3 := by
    split at hh
    · simp [Metadata.fail] at hh
    · obtain ⟨x6, st6, h6, hh⟩ := Metadata.bind_ok hh
      obtain ⟨x7, st7, h7, hh⟩ := Metadata.bind_ok hh
      obtain ⟨x8, st8, h8, hh⟩ := Metadata.bind_ok hh
      obtain ⟨x9, st9, h9, hh⟩ := Metadata.bind_ok hh
      obtain ⟨x10, st10, h10, hh⟩ := Metadata.bind_ok hh
      rw [Metadata.pure_def] at hh
      simp at hh
      rw [← hh.1]
  unfold Metadata.readField at h3
  obtain ⟨got, st11, h11, h3⟩ := Metadata.bind_ok h3
  have hl := readFromMem_length h11
  rw [List.length_replicate] at hl
  split at h3
  · simp [Metadata.fail] at h3
  · rw [Metadata.pure_def] at h3
    simp only [Metadata.Res.ok.injEq, Prod.mk.injEq] at h3
    rw [hq, hid, ← h3.1, List.length_append, List.length_drop, List.length_replicate]
    omega

/-! ### C111: the exit status -/

/-- **C111, in good order.** With a container packed from `d`, when nothing fails and libpulp is in no error state, the
status is 1 if the patch is applied and 0 if it is not.  Missing, and false: the same when something fails, see below. -/
theorem C111_status_partial (w : World) (d : Metadata.Patch) (hg : Good d) (path : Str) (h0 : (0 : UInt8) ∉ path)
    (hne : path ≠ []) (hp : path.length + 1 < 4096) (hs : (Metadata.packApply d).length + path.length + 5 < 512 * 1024)
    (ha : w.alloc = fun _ _ => true) (hw : AllWell w) (p : Proc) (he : p.errState = 0) :
    (Applied p d.patchId → status (runCheck w ⟨true, some (Metadata.packApply d), path⟩ p).1 = some 1) ∧
    (¬Applied p d.patchId → status (runCheck w ⟨true, some (Metadata.packApply d), path⟩ p).1 = some 0) := by
  obtain ⟨out, hx⟩ := Metadata.C13_extract_succeeds hg hp hs
  obtain ⟨q, st, hq, hi, -⟩ := Metadata.C13_roundtrip hg h0 hne hx [] w.c0
  have hrun : (runCheck w ⟨true, some (Metadata.packApply d), path⟩ p) = afterParse w d.patchId p := by
    unfold runCheck extractTo
    simp only [Bool.not_true, Bool.false_eq_true, if_false, hx]
    rw [List.append_nil] at hq
    unfold Metadata.mem at hq
    rw [ha, hq]
    simp only
    rw [hi.id]
  rw [hrun, afterParse_well _ _ _ hw]
  have hc : ∀ b, checkApplied (setId d.patchId { p with held := b }) = if d.patchId ∈ p.applied then 1 else 0 := by
    intro b
    unfold checkApplied
    rw [setId_take _ hg.id]
    simp [setId, he]
  rw [hc]
  unfold Applied
  constructor
  · intro h; rw [if_pos h]; rfl
  · intro h; rw [if_neg h]; rfl

/-- **C111, status 0.** It means that the patch of the container is not applied, or that libpulp is in an error state. -/
theorem C111_zero_partial (w : World) (c : Container) (p : Proc) (b : Bytes) (q st) (hb : extractTo c = .buf b)
    (hq : Metadata.parse ⟨b, w.alloc⟩ w.c0 = .ok (q, st))
    (h : status (runCheck w c p).1 = some 0) : p.errState ≠ 0 ∨ ¬Applied p q.patchId := by
  unfold runCheck at h
  rw [hb] at h
  simp only [hq] at h
  rcases afterParse_cases w q.patchId p with h1 | ⟨h1, -⟩
  · rw [h1] at h; exact absurd h (by decide)
  · rw [h1] at h
    by_cases he : p.errState = 0
    case neg => exact Or.inl he
    right
    intro ha
    have : checkApplied (setId q.patchId { p with held := true }) = 1 := by
      unfold checkApplied
      rw [setId_take _ (parse_id hq)]
      simp only [setId, he, ne_eq, not_true_eq_false, if_false]
      exact if_pos ha
    rw [this] at h
    exact absurd h (by decide)

/-- **C111 is false: an error looks like an applied patch.** Whatever the process, a file that is no container, or one whose
metadata is refused, gives status 1, that of an applied patch. -/
theorem C111_one_is_ambiguous (w : World) (c : Container) (p : Proc)
    (h : c.elf = false ∨ c.ulp = none ∨
      ∃ b e, extractTo c = .buf b ∧ Metadata.parse ⟨b, w.alloc⟩ w.c0 = .err e) :
    status (runCheck w c p).1 = some 1 := by
  rcases h with h | h | ⟨b, e, h1, h2⟩
  · unfold runCheck extractTo; simp [h, status]
  · unfold runCheck extractTo
    cases c.elf <;> simp [h, status]
  · unfold runCheck; rw [h1]; simp [h2, status]

/-- **C111 is false: in an error state.** Once libpulp is in an error state every patch is reported as not applied, those that
are applied too. -/
theorem C111_error_state (w : World) (hw : AllWell w) (c : Container) (p : Proc) (b : Bytes) (q st)
    (hb : extractTo c = .buf b) (hq : Metadata.parse ⟨b, w.alloc⟩ w.c0 = .ok (q, st)) (he : p.errState ≠ 0) :
    status (runCheck w c p).1 = some 0 := by
  unfold runCheck
  rw [hb]
  simp only [hq]
  rw [afterParse_well _ _ _ hw]
  unfold checkApplied
  simp [setId, he, status]

/-- **C111, undefined behaviour.** For a container with a path of 4095 bytes or more the pointer to the metadata is used without
having been assigned. -/
theorem C111_long_path (w : World) (hs : w.stackNull = false) (data : Bytes) (path : Str) (hp : 4095 ≤ path.length) (p : Proc) :
    status (runCheck w ⟨true, some data, path⟩ p).1 = none := by
  unfold runCheck extractTo Metadata.extract
  have : path.length + 1 ≥ Metadata.pathMax := by unfold Metadata.pathMax; omega
  simp [this, hs, status]

/-- **C111, what there is.** The status is 0, 1 or 255. -/
theorem C111_range (w : World) (c : Container) (p : Proc) (s : Nat) (h : status (runCheck w c p).1 = some s) :
    s = 0 ∨ s = 1 ∨ s = 255 := by
  unfold runCheck at h
  split at h
  · simp [status] at h
  · simp [status] at h; omega
  · split at h
    · simp [status] at h; omega
    · simp [status] at h
  · split at h
    · simp [status] at h
    · simp [status] at h; omega
    · rename_i q _ _
      rcases afterParse_cases w q.patchId p with h1 | ⟨h1, -⟩
      · rw [h1] at h; simp [status] at h; omega
      · rw [h1] at h
        rcases checkApplied_cases (setId q.patchId { p with held := true }) with h2 | h2 <;>
          rw [h2] at h <;> simp [status] at h <;> omega

/-! ### C112: the process -/

/-- What stays of the process. -/
structure Kept (p p' : Proc) : Prop where
  applied : p'.applied = p.applied
  errState : p'.errState = p.errState
  buffer : SameTail p'.buffer p.buffer

theorem setId_kept (id : Bytes) (hid : id.length = 32) (p : Proc) : Kept p (setId id p) := by
  refine ⟨rfl, rfl, ?_⟩
  unfold SameTail setId
  simp only
  rw [List.take_of_length_le (l := id) (by omega), List.drop_append, hid]
  simp [List.drop_eq_nil_of_le (Nat.le_of_eq hid)]

theorem patchApplied_kept (w : World) (id : Bytes) (hid : id.length = 32) (p : Proc) (b : Bool) :
    Kept p (patchApplied w id { p with held := b }).2.2 := by
  have h0 : Kept p { p with held := b } := ⟨rfl, rfl, rfl⟩
  have h1 := setId_kept id hid { p with held := b }
  unfold patchApplied
  split
  · exact h0
  · split
    · exact h0
    · simp only
      split
      · exact ⟨h1.1, h1.2, h1.3⟩
      · exact ⟨h1.1, h1.2, h1.3⟩

theorem afterParse_kept (w : World) (id : Bytes) (hid : id.length = 32) (p : Proc) (hh : p.held = false) :
    Kept p (afterParse w id p).2 ∧ ((afterParse w id p).2.held = true → (afterParse w id p).1 = .ret (-1) ∧ w.restore ≠ 0) := by
  have h0 : Kept p p := ⟨rfl, rfl, rfl⟩
  have h1 := patchApplied_kept w id hid p true
  unfold afterParse
  split
  · exact ⟨h0, by simp [hh]⟩
  split
  · exact ⟨h0, by simp [hh]⟩
  split
  · exact ⟨h0, by simp [hh]⟩
  split
  · exact ⟨h0, by simp [hh]⟩
  split
  · exact ⟨h0, by simp [hh]⟩
  simp only
  by_cases hr : w.restore = 0
  · simp only [hr, ne_eq, not_true_eq_false, if_false]
    split
    · exact ⟨⟨h1.1, h1.2, h1.3⟩, by simp⟩
    · exact ⟨⟨h1.1, h1.2, h1.3⟩, by simp⟩
  · simp only [hr, ne_eq, not_false_eq_true, if_true]
    exact ⟨h1, by simp⟩

/-- **C112.** `ulp check` leaves the applied patches and the error state of libpulp alone, changes nothing but the first 32 bytes
of the metadata buffer, and does not hold the threads at the end unless releasing them failed, which gives status 255. -/
theorem C112_process (w : World) (c : Container) (p : Proc) (hh : p.held = false) :
    (runCheck w c p).2.applied = p.applied ∧ (runCheck w c p).2.errState = p.errState ∧
    SameTail (runCheck w c p).2.buffer p.buffer ∧
    ((runCheck w c p).2.held = true → w.restore ≠ 0 ∧ status (runCheck w c p).1 = some 255) := by
  unfold runCheck
  split
  · exact ⟨rfl, rfl, rfl, by simp [hh]⟩
  · exact ⟨rfl, rfl, rfl, by simp [hh]⟩
  · split
    · exact ⟨rfl, rfl, rfl, by simp [hh]⟩
    · exact ⟨rfl, rfl, rfl, by simp [hh]⟩
  · split
    · exact ⟨rfl, rfl, rfl, by simp [hh]⟩
    · exact ⟨rfl, rfl, rfl, by simp [hh]⟩
    · rename_i q _ hq
      obtain ⟨h1, h2⟩ := afterParse_kept w q.patchId (parse_id hq) p hh
      exact ⟨h1.1, h1.2, h1.3, fun h => ⟨(h2 h).2, by rw [(h2 h).1]; rfl⟩⟩

/-! ### Cases -/

def exWorld : World := ⟨fun _ _ => true, [0, 0, 0, 0], false, some [49, 50], 0, 0, 0, true, 0, 0⟩

example : AllWell exWorld := ⟨by decide, rfl, rfl, rfl, rfl, rfl, rfl⟩

/-- The patch of the example of `Verif.Metadata` is applied. -/
def exProc : Proc := ⟨[List.replicate 32 9, Metadata.demoPatch.patchId], 0, List.replicate 40 5, false⟩

def exContainer : Container := ⟨true, some (Metadata.packApply Metadata.demoPatch), [47, 112]⟩

example : status (runCheck exWorld exContainer exProc).1 = some 1 :=
  (C111_status_partial exWorld _ Metadata.demoPatch_good [47, 112] (by decide) (by decide) (by decide) (by decide +kernel) rfl
    ⟨by decide, rfl, rfl, rfl, rfl, rfl, rfl⟩ exProc rfl).1 (by unfold Applied; decide +kernel)

/-- The same process in an error state. -/
example : status (runCheck exWorld exContainer { exProc with errState := 300 }).1 = some 0 := by decide +kernel

/-- A process without the patch. -/
example : status (runCheck exWorld exContainer { exProc with applied := [] }).1 = some 0 := by decide +kernel

/-- A container that is cut: as if the patch were applied. -/
example : status (runCheck exWorld { exContainer with ulp := some ((Metadata.packApply Metadata.demoPatch).take 50) }
    { exProc with applied := [] }).1 = some 1 := by decide +kernel

/-- The threads cannot be released. -/
example : (runCheck { exWorld with restore := 1 } exContainer exProc).2.held = true ∧
    status (runCheck { exWorld with restore := 1 } exContainer exProc).1 = some 255 := by decide +kernel

/-! ### Further concrete cases -/

/-- The metadata of the container of the examples, as read. -/
theorem ex_parse : ∃ b q st, extractTo exContainer = .buf b ∧ Metadata.parse ⟨b, exWorld.alloc⟩ exWorld.c0 = .ok (q, st)
    ∧ q.patchId = Metadata.demoPatch.patchId := by
  have h : (match extractTo exContainer with
    | .buf b => (match Metadata.parse ⟨b, exWorld.alloc⟩ exWorld.c0 with
      | .ok (q, _) => some q.patchId
      | _ => none)
    | _ => none) = some Metadata.demoPatch.patchId := by decide +kernel
  cases hb : extractTo exContainer with
  | buf b =>
    cases hq : Metadata.parse ⟨b, exWorld.alloc⟩ exWorld.c0 with
    | ok x => obtain ⟨q, st⟩ := x; rw [hb] at h; simp only [hq] at h; exact ⟨b, q, st, rfl, hq, Option.some.inj h⟩
    | _ => rw [hb] at h; simp [hq] at h
  | _ => rw [hb] at h; simp at h

example : ¬ Applied { exProc with applied := [] } Metadata.demoPatch.patchId := by
  obtain ⟨b, q, st, hb, hq, hid⟩ := ex_parse
  rw [← hid]
  exact (C111_zero_partial exWorld exContainer { exProc with applied := [] } b q st hb hq (by decide +kernel)).resolve_left (by decide)

example := C111_one_is_ambiguous exWorld { exContainer with elf := false } { exProc with applied := [] } (.inl rfl)

example : status (runCheck exWorld exContainer { exProc with errState := 300 }).1 = some 0 := by
  obtain ⟨b, q, st, hb, hq, -⟩ := ex_parse
  exact C111_error_state exWorld ⟨by decide, rfl, rfl, rfl, rfl, rfl, rfl⟩ exContainer { exProc with errState := 300 } b q st hb hq (by decide)

example := C111_long_path exWorld rfl (Metadata.packApply Metadata.demoPatch) (List.replicate 4095 97) (Nat.le_of_eq List.length_replicate.symm) exProc
example := C111_range exWorld exContainer exProc 1 (by decide +kernel)
example := C112_process { exWorld with restore := 1 } exContainer exProc rfl

end Verif.Check
