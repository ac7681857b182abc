import Verif.Pack.Model
import Verif.Dsc.Props
import Verif.Extract.Props
import Verif.Md4.Props

/-!
C85–C88: embedding of metadata, ids, temporary files.
-/

namespace Verif.Pack

open Verif.Extract (SoInfo)
open Verif.Dsc (Env describe Fits)
open Verif.Dsc.Spec (Desc Describes)
open Verif.Metadata (Patch packApply packRevert)

/-! ### Lemmas -/

theorem describe_id (e : Env) (id content : Bytes) :
    describe e id content = (describe e [] content >>= fun p => .ok { p with patchId := id }) := by
  unfold describe
  cases Dsc.parseDescription e content with
  | ok x =>
    obtain ⟨deps, acc⟩ := x
    simp only [Dsc.bind_ok]
    cases acc.obj with
    | none => rfl
    | some t =>
      simp only
      cases Dsc.getTargetAddrs t acc.units with
      | ok us => cases Dsc.getTargetRefAddrs t acc.refs <;> rfl
      | _ => rfl
  | _ => rfl

theorem describe_nil {e : Env} {id content : Bytes} {p : Patch} (h : describe e id content = .ok p) :
    ∃ q, describe e [] content = .ok q ∧ { q with patchId := id } = p := by
  rw [describe_id] at h
  obtain ⟨q, h1, h2⟩ := Dsc.bind_eq_ok.mp h
  exact ⟨q, h1, by simpa using h2⟩

theorem lookup_map_self (s : List (Str × Bytes)) (name : Str) (data : Bytes) (h : (s.lookup name).isSome) :
    (s.map fun (n, d) => if n = name then (n, data) else (n, d)).lookup name = some data := by
  induction s with
  | nil => simp at h
  | cons x s ih =>
    obtain ⟨n, d⟩ := x
    by_cases hn : n = name
    · subst hn; simp
    · have hb : (name == n) = false := by simpa using Ne.symm hn
      rw [List.lookup_cons, hb] at h
      rw [List.map_cons]
      simp only [if_neg hn]
      rw [List.lookup_cons, hb]
      exact ih h

theorem lookup_map_ne (s : List (Str × Bytes)) {name other : Str} (data : Bytes) (hne : other ≠ name) :
    (s.map fun (n, d) => if n = name then (n, data) else (n, d)).lookup other = s.lookup other := by
  induction s with
  | nil => rfl
  | cons x s ih =>
    obtain ⟨n, d⟩ := x
    rw [List.map_cons]
    by_cases hn : n = name
    · subst hn
      have hb : (other == n) = false := by simpa using hne
      simp only [if_true]
      rw [List.lookup_cons, List.lookup_cons, hb]
      exact ih
    · simp only [if_neg hn]
      rw [List.lookup_cons, List.lookup_cons, ih]

theorem lookup_append_new (s : List (Str × Bytes)) (name : Str) (data : Bytes) (h : ¬ (s.lookup name).isSome) :
    (s ++ [(name, data)]).lookup name = some data := by
  induction s with
  | nil => simp
  | cons x s ih =>
    obtain ⟨n, d⟩ := x
    rw [List.lookup_cons] at h
    cases hb : name == n with
    | true => rw [hb] at h; simp at h
    | false => rw [hb] at h; rw [List.cons_append, List.lookup_cons, hb]; exact ih h

theorem lookup_append_ne (s : List (Str × Bytes)) {name other : Str} (data : Bytes) (hne : other ≠ name) :
    (s ++ [(name, data)]).lookup other = s.lookup other := by
  induction s with
  | nil =>
    have hb : (other == name) = false := by simpa using hne
    simp [List.lookup_cons, hb]
  | cons x s ih =>
    obtain ⟨n, d⟩ := x
    rw [List.cons_append, List.lookup_cons, List.lookup_cons, ih]

theorem setSection_self (s : List (Str × Bytes)) (name : Str) (data : Bytes) : (setSection s name data).lookup name = some data := by
  unfold setSection
  split
  · rename_i h; exact lookup_map_self s name data h
  · rename_i h; exact lookup_append_new s name data h

theorem setSection_other (s : List (Str × Bytes)) {name other : Str} (data : Bytes) (hne : other ≠ name) :
    (setSection s name data).lookup other = s.lookup other := by
  unfold setSection
  split
  · exact lookup_map_ne s data hne
  · exact lookup_append_ne s data hne

/-! ### C85: success means that the metadata is embedded -/

/-- The description is accepted and the id can be made. -/
structure Accepted (e : Env) (content : Bytes) (c : Lp) (fuel : Nat) (p : Patch) : Prop where
  id : writePatchId c content fuel = some (some p.patchId)
  describe : describe e p.patchId content = .ok p

theorem runPacker_accepted {e : Env} {content : Bytes} {c : Lp} {fuel : Nat} {p : Patch} (h : Accepted e content c fuel p)
    (comments : Option Bytes) (r1 r2 r3 : Run) :
    runPacker e content comments c r1 r2 r3 fuel = some (embedAll p comments c r1 r2 r3) := by
  obtain ⟨q, h1, h2⟩ := describe_nil h.describe
  unfold runPacker
  rw [h1]
  simp only [h.id]
  rw [h2]

theorem embed_zero (c : Lp) (name : Str) (data : Bytes) : embed (.exit 0) c name data = some (0, ⟨c.note, setSection c.sections name data⟩) := rfl

theorem embedAll_none (p : Patch) (c : Lp) (r2 : Run) : embedAll p none c (.exit 0) r2 (.exit 0) =
    .exit 0 ⟨c.note, setSection (setSection c.sections secUlp (packApply p)) secRev (packRevert p)⟩ := rfl

theorem embedAll_some (p : Patch) (text : Bytes) (c : Lp) : embedAll p (some text) c (.exit 0) (.exit 0) (.exit 0) =
    .exit 0 ⟨c.note, setSection (setSection (setSection c.sections secUlp (packApply p)) secComments (text ++ [0])) secRev (packRevert p)⟩ := rfl

/-- If objcopy succeeds each time, the packer exits with 0 and the container has the metadata to apply and to revert
the patch, and the comments.  Other sections are left as they were.  Missing: that it reports when objcopy
fails, see below. -/
theorem C85_embedded_partial {e : Env} {content : Bytes} {c : Lp} {fuel : Nat} {p : Patch} (h : Accepted e content c fuel p)
    (comments : Option Bytes) : ∃ c', runPacker e content comments c (.exit 0) (.exit 0) (.exit 0) fuel = some (.exit 0 c') ∧
      c'.sections.lookup ".ulp".toUTF8.toList = some (packApply p) ∧ c'.sections.lookup ".ulp.rev".toUTF8.toList = some (packRevert p) ∧
      (∀ text, comments = some text → c'.sections.lookup ".ulp.comments".toUTF8.toList = some (text ++ [0])) ∧ c'.note = c.note ∧
      ∀ n, n ≠ ".ulp".toUTF8.toList → n ≠ ".ulp.rev".toUTF8.toList → n ≠ ".ulp.comments".toUTF8.toList →
        c'.sections.lookup n = c.sections.lookup n := by
  have e1 : ".ulp".toUTF8.toList = secUlp := by decide +kernel
  have e2 : ".ulp.rev".toUTF8.toList = secRev := by decide +kernel
  have e3 : ".ulp.comments".toUTF8.toList = secComments := by decide +kernel
  rw [runPacker_accepted h, e1, e2, e3]
  cases comments with
  | none =>
    rw [embedAll_none]
    refine ⟨_, rfl, ?_, setSection_self .., by simp, rfl, ?_⟩
    · rw [setSection_other _ _ (by decide), setSection_self]
    · intro n h1 h2 _
      rw [setSection_other _ _ h2, setSection_other _ _ h1]
  | some text =>
    rw [embedAll_some]
    refine ⟨_, rfl, ?_, setSection_self .., ?_, rfl, ?_⟩
    · rw [setSection_other _ _ (by decide), setSection_other _ _ (by decide), setSection_self]
    · intro t ht
      injection ht with ht
      subst ht
      rw [setSection_other _ _ (by decide), setSection_self]
    · intro n h1 h2 h3
      rw [setSection_other _ _ h2, setSection_other _ _ h3, setSection_other _ _ h1]

/-- objcopy ran, and failed. -/
def Failed : Run → Prop
  | .signal => True
  | .exit s => s ≠ 0
  | _ => False

theorem embed_failed {r : Run} (h : Failed r) (c : Lp) (name : Str) (data : Bytes) : embed r c name data = some (0, c) := by
  cases r with
  | signal => rfl
  | exit s => simp only [embed]; rw [if_neg h]
  | _ => exact h.elim

/-- But if objcopy fails each time, the packer reports success although nothing was embedded. -/
theorem C85_objcopy_failure_ignored {e : Env} {content : Bytes} {c : Lp} {fuel : Nat} {p : Patch} (h : Accepted e content c fuel p)
    (comments : Option Bytes) {r1 r2 r3 : Run} (h1 : Failed r1) (h2 : Failed r2) (h3 : Failed r3) :
    runPacker e content comments c r1 r2 r3 fuel = some (.exit 0 c) := by
  rw [runPacker_accepted h]
  unfold embedAll
  rw [embed_failed h1]
  cases comments with
  | none => simp only [embedComments, embed_failed h3]; rfl
  | some t => simp only [embedComments, embed_failed h2]; simp [embed_failed h3]

/-- objcopy ran, whether it failed or not. -/
def Ran : Run → Prop
  | .signal => True
  | .exit _ => True
  | _ => False

theorem embed_ran {r : Run} (h : Ran r) (c : Lp) (name : Str) (data : Bytes) : ∃ c', embed r c name data = some (0, c') ∧
    c'.sections.lookup name = (if r = .exit 0 then some data else c.sections.lookup name) ∧
    ∀ n, n ≠ name → c'.sections.lookup n = c.sections.lookup n := by
  cases r with
  | signal => exact ⟨c, rfl, rfl, fun _ _ => rfl⟩
  | exit s =>
    by_cases hs : s = 0
    · subst hs
      exact ⟨_, rfl, setSection_self .., fun _ hn => setSection_other _ _ hn⟩
    · refine ⟨c, embed_failed (r := .exit s) hs c name data, ?_, fun _ _ => rfl⟩
      rw [if_neg (fun h => hs (Run.exit.inj h))]
  | _ => exact h.elim

/-- Its status is never looked at: once objcopy could be started three times, the packer reports success, and each
section is embedded if its own run of objcopy succeeded. -/
theorem C85_status_ignored {e : Env} {content : Bytes} {c : Lp} {fuel : Nat} {p : Patch} (h : Accepted e content c fuel p)
    (text : Bytes) {r1 r2 r3 : Run} (h1 : Ran r1) (h2 : Ran r2) (h3 : Ran r3) :
    ∃ c', runPacker e content (some text) c r1 r2 r3 fuel = some (.exit 0 c') ∧
      c'.sections.lookup ".ulp".toUTF8.toList = (if r1 = .exit 0 then some (packApply p) else c.sections.lookup ".ulp".toUTF8.toList) ∧
      c'.sections.lookup ".ulp.comments".toUTF8.toList = (if r2 = .exit 0 then some (text ++ [0]) else c.sections.lookup ".ulp.comments".toUTF8.toList) ∧
      c'.sections.lookup ".ulp.rev".toUTF8.toList = (if r3 = .exit 0 then some (packRevert p) else c.sections.lookup ".ulp.rev".toUTF8.toList) := by
  have e1 : ".ulp".toUTF8.toList = secUlp := by decide +kernel
  have e2 : ".ulp.rev".toUTF8.toList = secRev := by decide +kernel
  have e3 : ".ulp.comments".toUTF8.toList = secComments := by decide +kernel
  rw [runPacker_accepted h, e1, e2, e3]
  obtain ⟨c1, a1, b1, d1⟩ := embed_ran h1 c secUlp (packApply p)
  obtain ⟨c2, a2, b2, d2⟩ := embed_ran h2 c1 secComments (text ++ [0])
  obtain ⟨c3, a3, b3, d3⟩ := embed_ran h3 c2 secRev (packRevert p)
  refine ⟨c3, ?_, ?_, ?_, ?_⟩
  · unfold embedAll
    simp [a1, embedComments, a2, a3]
  · rw [d3 _ (by decide), d2 _ (by decide), b1]
  · rw [d3 _ (by decide), b2, d1 _ (by decide)]
  · rw [b3, d2 _ (by decide), d1 _ (by decide)]

/-- If the comments cannot be embedded, because objcopy or the container is gone meanwhile, it reports success although
there is no metadata to revert the patch. -/
theorem C85_comments_failure_ignored {e : Env} {content : Bytes} {c : Lp} {fuel : Nat} {p : Patch} (h : Accepted e content c fuel p)
    (text : Bytes) {r2 : Run} (h2 : r2 = .missing ∨ r2 = .noLoad) (r3 : Run) :
    ∃ c', runPacker e content (some text) c (.exit 0) r2 r3 fuel = some (.exit 0 c') ∧
      c'.sections.lookup ".ulp.rev".toUTF8.toList = c.sections.lookup ".ulp.rev".toUTF8.toList := by
  have e2 : ".ulp.rev".toUTF8.toList = secRev := by decide +kernel
  rw [runPacker_accepted h, e2]
  rcases h2 with rfl | rfl
  · exact ⟨_, rfl, setSection_other _ _ (by decide)⟩
  · exact ⟨_, rfl, setSection_other _ _ (by decide)⟩

/-- If objcopy is not there, or the container is no ELF file, the packer fails and the container is left as it was; so
it does if the description is refused or there is no build id. -/
theorem C85_early_failure_reported {e : Env} {content : Bytes} {c : Lp} {fuel : Nat} (comments : Option Bytes) {r1 : Run} (r2 r3 : Run)
    (h : describe e [] content = .err ∨ (∃ p, describe e [] content = .ok p ∧ (c.note = none ∨
      ∃ id, writePatchId c content fuel = some (some id) ∧ (r1 = .missing ∨ r1 = .noLoad)))) :
    runPacker e content comments c r1 r2 r3 fuel = some (.exit 1 c) := by
  unfold runPacker
  rcases h with h | ⟨p, h, hn | ⟨id, hid, rfl | rfl⟩⟩
  · rw [h]
  · rw [h]; simp only [writePatchId, hn]
  · rw [h]; simp only [hid]; rfl
  · rw [h]; simp only [hid]; rfl

/-- If `execv` fails, the packer's stack is destroyed. -/
theorem C85_exec_failure_crashes {e : Env} {content : Bytes} {c : Lp} {fuel : Nat} {p : Patch} (h : Accepted e content c fuel p)
    (comments : Option Bytes) (r2 r3 : Run) : runPacker e content comments c .execFails r2 r3 fuel = some .crash := by
  rw [runPacker_accepted h]
  rfl

/-! ### C86: packing again replaces what was packed before -/

/-- All metadata in the container is that of the last description packed: the one to apply and the one to revert always,
and the comments if there are some. -/
theorem C86_repack_partial {e e' : Env} {content content' : Bytes} {c : Lp} {fuel : Nat} {p p' : Patch} (h : Accepted e content c fuel p)
    (h' : Accepted e' content' c fuel p') (comments : Option Bytes) (text : Bytes) :
    ∃ c' c'', runPacker e content comments c (.exit 0) (.exit 0) (.exit 0) fuel = some (.exit 0 c') ∧
      runPacker e' content' (some text) c' (.exit 0) (.exit 0) (.exit 0) fuel = some (.exit 0 c'') ∧
      c''.sections.lookup ".ulp".toUTF8.toList = some (packApply p') ∧ c''.sections.lookup ".ulp.rev".toUTF8.toList = some (packRevert p') ∧
      c''.sections.lookup ".ulp.comments".toUTF8.toList = some (text ++ [0]) := by
  obtain ⟨c', h1, -, -, -, hn, -⟩ := C85_embedded_partial h comments
  have h2 : Accepted e' content' c' fuel p' := by
    refine ⟨?_, h'.describe⟩
    rw [← h'.id]
    unfold writePatchId
    rw [hn]
  obtain ⟨c'', h3, h4, h5, h6, -⟩ := C85_embedded_partial h2 (some text)
  exact ⟨c', c'', h1, h3, h4, h5, h6 text rfl⟩

/-- But the comments of the earlier description stay if the new one has none. -/
theorem C86_stale_comments {e e' : Env} {content content' : Bytes} {c : Lp} {fuel : Nat} {p p' : Patch} (h : Accepted e content c fuel p)
    (h' : Accepted e' content' c fuel p') (text : Bytes) :
    ∃ c' c'', runPacker e content (some text) c (.exit 0) (.exit 0) (.exit 0) fuel = some (.exit 0 c') ∧
      runPacker e' content' none c' (.exit 0) (.exit 0) (.exit 0) fuel = some (.exit 0 c'') ∧
      c''.sections.lookup ".ulp".toUTF8.toList = some (packApply p') ∧
      c''.sections.lookup ".ulp.comments".toUTF8.toList = some (text ++ [0]) := by
  obtain ⟨c', h1, -, -, hc, hn, -⟩ := C85_embedded_partial h (some text)
  have h2 : Accepted e' content' c' fuel p' := by
    refine ⟨?_, h'.describe⟩
    rw [← h'.id]
    unfold writePatchId
    rw [hn]
  have e1 : ".ulp".toUTF8.toList = secUlp := by decide +kernel
  have e3 : ".ulp.comments".toUTF8.toList = secComments := by decide +kernel
  have := hc text rfl
  rw [e3] at this
  refine ⟨c', _, h1, by rw [runPacker_accepted h2, embedAll_none], ?_, ?_⟩
  · rw [e1, setSection_other _ _ (by decide), setSection_self]
  · rw [e3, setSection_other _ _ (by decide), setSection_other _ _ (by decide)]
    exact this

/-! ### C87: ids of live patches -/

theorem md4_length (b : Bytes) : (Md4.md4 b).length = 16 := by
  simp [Md4.md4, Md4.append]

theorem mkId_eq (b d : Bytes) : mkId b d = b.take 16 ++ List.replicate (16 - b.length) 0 ++ Md4.md4 d := by
  have h1 : (Md4.md4 d).take 16 = Md4.md4 d := List.take_of_length_le (Nat.le_of_eq (md4_length d))
  have h2 : 16 - (b.take 16).length = 16 - b.length := by rw [List.length_take]; omega
  simp only [mkId, h1, h2]

/-- The container has that build id, in the first note of its section. -/
def HasBuildId (c : Lp) (id : Bytes) : Prop :=
  ∃ name rest, c.note = some (Extract.Spec.note name 3 id ++ rest) ∧ name.length < 2 ^ 32 ∧ id.length < 2 ^ 32

/-- The id of a live patch has 32 bytes: the first 16 of the build id of its container (with zeros added, if it is
shorter), and the MD4 digest of its description. -/
theorem C87_id {c : Lp} {bid : Bytes} (h : HasBuildId c bid) (content : Bytes) (hl : content.length + 72 < 2 ^ 64) (fuel : Nat) :
    ∃ digest, Md4.Spec.IsMd4 content digest ∧
      writePatchId c content (fuel + 1) = some (some (bid.take 16 ++ List.replicate (16 - bid.length) 0 ++ digest)) ∧
      (bid.take 16 ++ List.replicate (16 - bid.length) 0 ++ digest).length = 32 := by
  obtain ⟨name, rest, h1, h2, h3⟩ := h
  obtain ⟨next, h4, h5⟩ := Extract.getNote_first name 3 bid rest h2 h3 (by decide)
  refine ⟨Md4.md4 content, Md4.C43_md4_is_rfc1320 content hl, ?_, ?_⟩
  · unfold writePatchId
    simp only [h1, parseBuildId, Extract.noteLoop, h4, Extract.NT_GNU_BUILD_ID, if_true, h5, Option.map_some, mkId_eq]
  · simp only [List.length_append, List.length_take, List.length_replicate, md4_length]
    omega

theorem writePatchId_eq {c : Lp} {bid : Bytes} (h : HasBuildId c bid) (content : Bytes) (fuel : Nat) :
    writePatchId c content (fuel + 1) = some (some (mkId bid content)) := by
  obtain ⟨name, rest, h1, h2, h3⟩ := h
  obtain ⟨next, h4, h5⟩ := Extract.getNote_first name 3 bid rest h2 h3 (by decide)
  unfold writePatchId
  simp only [h1, parseBuildId, Extract.noteLoop, h4, Extract.NT_GNU_BUILD_ID, if_true, h5, Option.map_some]

/-- Live patches whose build ids differ within the first 16 bytes have different ids, whatever their descriptions. -/
theorem C87_distinct_partial {c c' : Lp} {bid bid' : Bytes} (h : HasBuildId c bid) (h' : HasBuildId c' bid')
    (h16 : 16 ≤ bid.length) (h16' : 16 ≤ bid'.length) (hne : bid.take 16 ≠ bid'.take 16) (content content' : Bytes) (fuel fuel' : Nat) :
    writePatchId c content (fuel + 1) ≠ writePatchId c' content' (fuel' + 1) := by
  rw [writePatchId_eq h, writePatchId_eq h', mkId_eq, mkId_eq]
  intro heq
  injection heq with heq
  injection heq with heq
  apply hne
  have := congrArg (List.take 16) heq
  rw [List.append_assoc, List.append_assoc, List.take_left' (by rw [List.length_take]; omega), List.take_left' (by rw [List.length_take]; omega)] at this
  exact this

/-- But the last 4 of the 20 bytes of a build id do not matter: different live patches can have the same id. -/
theorem C87_same_id {c c' : Lp} {bid bid' : Bytes} (h : HasBuildId c bid) (h' : HasBuildId c' bid')
    (h16 : 16 ≤ bid.length) (h16' : 16 ≤ bid'.length) (heq : bid.take 16 = bid'.take 16) (content : Bytes) (fuel fuel' : Nat) :
    writePatchId c content (fuel + 1) = writePatchId c' content (fuel' + 1) := by
  rw [writePatchId_eq h, writePatchId_eq h', mkId_eq, mkId_eq, heq, show 16 - bid.length = 0 by omega, show 16 - bid'.length = 0 by omega]

/-- From the description to the process: a well-formed description is packed into the container, and what the trigger
tool takes from there to apply and to revert the patch is understood by the process as that, with the same id. -/
theorem C85_reaches_process {d : Desc} {e : Env} {lp t : SoInfo} {deps : List Bytes} (h : d.Good e lp t deps) {c : Lp} {bid : Bytes}
    (hb : HasBuildId c bid) (hl : d.render.length + 72 < 2 ^ 64) (comments : Option Bytes) (fuel : Nat)
    (hf : ∀ id : Bytes, id.length = 32 → Fits d t id) {path : Str} (h0 : 0 ∉ path) (hne : path ≠ []) :
    ∃ c' p apply revert, runPacker e d.render comments c (.exit 0) (.exit 0) (.exit 0) (fuel + 1) = some (.exit 0 c') ∧
      Describes p d lp t p.patchId deps ∧
      c'.sections.lookup ".ulp".toUTF8.toList = some apply ∧ c'.sections.lookup ".ulp.rev".toUTF8.toList = some revert ∧
      (∀ out, Metadata.extract apply path = .ok out → ∀ rest c0, ∃ q st,
        Metadata.parse (Metadata.mem (out ++ rest)) c0 = .ok (q, st) ∧ Metadata.Spec.IsApply q p path) ∧
      (∀ out, Metadata.extract revert path = .ok out → ∀ rest c0, ∃ q st,
        Metadata.parse (Metadata.mem (out ++ rest)) c0 = .ok (q, st) ∧ Metadata.Spec.IsRevert q p path) := by
  obtain ⟨dg, -, hid, hlen⟩ := C87_id hb d.render hl fuel
  obtain ⟨p, h1, h2⟩ := Dsc.C80_describes h (bid.take 16 ++ List.replicate (16 - bid.length) 0 ++ dg)
  have hacc : Accepted e d.render c (fuel + 1) p := ⟨by rw [hid, h2.id], by rw [h2.id]; exact h1⟩
  obtain ⟨c', h3, h4, h5, -⟩ := C85_embedded_partial hacc comments
  have hg := Dsc.good_describes h (hf _ hlen) h2
  refine ⟨c', p, _, _, h3, by rw [h2.id]; exact h2, h4, h5, ?_, ?_⟩
  · intro out hx rest c0
    obtain ⟨q, st, h6, h7, -⟩ := Metadata.C13_roundtrip hg h0 hne hx rest c0
    exact ⟨q, st, h6, h7⟩
  · intro out hx rest c0
    obtain ⟨q, st, h6, h7, -⟩ := Metadata.C14_revert_roundtrip hg h0 hne hx rest c0
    exact ⟨q, st, h6, h7⟩

/-! ### C88: temporary files -/

/-- The temporary file is one that was not in use. -/
theorem C88_unused_partial {used : Nat → Bool} {token : Nat → Nat} {fuel n : Nat} (h : tmpPath used token fuel = some n) : used n = false := by
  have key : ∀ (fuel i : Nat) (b : Bool), tmpLoop used token fuel i b = some n → used n = false := by
    intro fuel
    induction fuel with
    | zero => intro i b h; simp [tmpLoop] at h
    | succ f ih =>
      intro i b h
      simp only [tmpLoop] at h
      cases hu : used (token i) with
      | true => rw [hu] at h; simp at h; exact ih _ _ h
      | false =>
        rw [hu] at h
        cases b with
        | true => simp at h; exact ih _ _ h
        | false => simp at h; rw [← h]; exact hu
  exact key fuel 0 false h

/-- But if the first number drawn is in use, the tool never ends, whatever numbers it draws after that. -/
theorem C88_conflict_hangs {used : Nat → Bool} {token : Nat → Nat} (h : used (token 0) = true) (fuel : Nat) :
    tmpPath used token fuel = none := by
  have key : ∀ (fuel i : Nat), tmpLoop used token fuel i true = none := by
    intro fuel
    induction fuel with
    | zero => intro i; rfl
    | succ f ih => intro i; simp [tmpLoop, ih]
  cases fuel with
  | zero => rfl
  | succ f => simp [tmpPath, tmpLoop, h, key]

/-- It ends at once otherwise. -/
theorem C88_no_conflict {used : Nat → Bool} {token : Nat → Nat} (h : used (token 0) = false) (fuel : Nat) :
    tmpPath used token (fuel + 1) = some (token 0) := by
  simp [tmpPath, tmpLoop, h]

/-! ### Examples -/

/-- The container of `Dsc.demoDesc`, packed before with comments. -/
def demoLp : Lp := ⟨some (Extract.Spec.note [71, 78, 85, 0] 3 (List.replicate 20 8)), [([46, 120], [1]), (secComments, [65, 0])]⟩

theorem demoLp_buildId : HasBuildId demoLp (List.replicate 20 8) := ⟨[71, 78, 85, 0], [], by simp [demoLp], by decide, by decide⟩

theorem demo_accepted : ∃ p, Accepted Dsc.demoEnv Dsc.demoDesc.render demoLp 1 p := by
  obtain ⟨p, h1, h2⟩ := Dsc.C80_describes Dsc.demoDesc_good (mkId (List.replicate 20 8) Dsc.demoDesc.render)
  exact ⟨p, by rw [h2.id]; exact writePatchId_eq demoLp_buildId _ 0, by rw [h2.id]; exact h1⟩

example : ∃ c', runPacker Dsc.demoEnv Dsc.demoDesc.render (some [66]) demoLp (.exit 0) (.exit 0) (.exit 0) 1 = some (.exit 0 c') ∧
    c'.sections.lookup ".ulp.comments".toUTF8.toList = some [66, 0] := by
  obtain ⟨p, h⟩ := demo_accepted
  obtain ⟨c', h1, -, -, h2, -⟩ := C85_embedded_partial h (some [66])
  exact ⟨c', h1, h2 _ rfl⟩

example : runPacker Dsc.demoEnv Dsc.demoDesc.render none demoLp (.exit 1) .signal (.exit 2) 1 = some (.exit 0 demoLp) := by
  obtain ⟨p, h⟩ := demo_accepted
  exact C85_objcopy_failure_ignored h none (show (1 : UInt8) ≠ 0 by decide) trivial (show (2 : UInt8) ≠ 0 by decide)

example : ∃ c', runPacker Dsc.demoEnv Dsc.demoDesc.render (some [66]) demoLp (.exit 0) .noLoad (.exit 0) 1 = some (.exit 0 c') ∧
    c'.sections.lookup ".ulp.rev".toUTF8.toList = none := by
  obtain ⟨p, h⟩ := demo_accepted
  obtain ⟨c', h1, h2⟩ := C85_comments_failure_ignored h [66] (r2 := .noLoad) (Or.inr rfl) (.exit 0)
  exact ⟨c', h1, h2.trans (by decide +kernel)⟩

example : ∃ c', runPacker Dsc.demoEnv Dsc.demoDesc.render (some [66]) demoLp (.exit 0) (.exit 1) .signal 1 = some (.exit 0 c') ∧
    c'.sections.lookup ".ulp.comments".toUTF8.toList = some [65, 0] ∧ c'.sections.lookup ".ulp.rev".toUTF8.toList = none := by
  obtain ⟨p, h⟩ := demo_accepted
  obtain ⟨c', h1, -, h3, h4⟩ := C85_status_ignored h [66] (r1 := .exit 0) (r2 := .exit 1) (r3 := .signal) trivial trivial trivial
  exact ⟨c', h1, h3.trans (by decide +kernel), h4.trans ((if_neg (by decide)).trans (by decide +kernel))⟩

example : runPacker Dsc.demoEnv [33, 10] none demoLp (.exit 0) (.exit 0) (.exit 0) 1 = some (.exit 1 demoLp) :=
  C85_early_failure_reported none _ _ (Or.inl (by decide +kernel))

example : runPacker Dsc.demoEnv Dsc.demoDesc.render none demoLp .execFails (.exit 0) (.exit 0) 1 = some .crash := by
  obtain ⟨p, h⟩ := demo_accepted
  exact C85_exec_failure_crashes h none _ _

example : ∃ c' c'', runPacker Dsc.demoEnv Dsc.demoDesc.render (some [66]) demoLp (.exit 0) (.exit 0) (.exit 0) 1 = some (.exit 0 c') ∧
    runPacker Dsc.demoEnv Dsc.demoDesc.render none c' (.exit 0) (.exit 0) (.exit 0) 1 = some (.exit 0 c'') ∧
    c''.sections.lookup ".ulp.comments".toUTF8.toList = some [66, 0] := by
  obtain ⟨p, h⟩ := demo_accepted
  obtain ⟨c', c'', h1, h2, -, h3⟩ := C86_stale_comments h h [66]
  exact ⟨c', c'', h1, h2, h3⟩

example : ∃ c' c'', runPacker Dsc.demoEnv Dsc.demoDesc.render none demoLp (.exit 0) (.exit 0) (.exit 0) 1 = some (.exit 0 c') ∧
    runPacker Dsc.demoEnv Dsc.demoDesc.render (some [66]) c' (.exit 0) (.exit 0) (.exit 0) 1 = some (.exit 0 c'') ∧
    c''.sections.lookup ".ulp.comments".toUTF8.toList = some [66, 0] := by
  obtain ⟨p, h⟩ := demo_accepted
  obtain ⟨c', c'', h1, h2, -, -, h3⟩ := C86_repack_partial h h none [66]
  exact ⟨c', c'', h1, h2, h3⟩

example : writePatchId demoLp [] 1 = some (some (List.replicate 16 8 ++
    [0x31, 0xd6, 0xcf, 0xe0, 0xd1, 0x6a, 0xe9, 0x31, 0xb7, 0x3c, 0x59, 0xd7, 0xe0, 0xc0, 0x89, 0xc0])) := by decide +kernel

example := C87_id demoLp_buildId [97, 98, 99] (by decide) 0

/-- Another container, whose build id differs in the last byte. -/
def demoLp2 : Lp := ⟨some (Extract.Spec.note [71, 78, 85, 0] 3 (List.replicate 19 8 ++ [9])), []⟩

example : writePatchId demoLp [1] 1 = writePatchId demoLp2 [1] 1 :=
  C87_same_id demoLp_buildId (c' := demoLp2) (bid' := List.replicate 19 8 ++ [9]) ⟨[71, 78, 85, 0], [], by simp [demoLp2], by decide, by decide⟩
    (by decide) (by decide) (by decide) _ 0 0

/-- And one whose build id differs in the first. -/
def demoLp3 : Lp := ⟨some (Extract.Spec.note [71, 78, 85, 0] 3 (7 :: List.replicate 19 8)), []⟩

example : writePatchId demoLp [1] 1 ≠ writePatchId demoLp3 [2, 3] 1 :=
  C87_distinct_partial demoLp_buildId (c' := demoLp3) (bid' := 7 :: List.replicate 19 8) ⟨[71, 78, 85, 0], [], by simp [demoLp3], by decide, by decide⟩
    (by decide) (by decide) (by decide) _ _ 0 0

example := C85_reaches_process Dsc.demoDesc_good demoLp_buildId (by decide +kernel) (some [66]) 0
  (fun id h => ⟨h, by decide +kernel, ⟨by decide +kernel, by decide +kernel⟩, by decide +kernel, by decide +kernel, by decide +kernel⟩) (path := [47, 120]) (by decide) (by decide)

example : tmpPath (fun n => n == 5) (fun i => i + 5) 1000 = none := C88_conflict_hangs rfl _
example : tmpPath (fun n => n == 5) (fun i => i + 6) 1 = some 6 := C88_no_conflict rfl _
example : (fun n => n == 5) 6 = false := C88_unused_partial (used := fun n => n == 5) (token := fun i => i + 6) (fuel := 1) rfl

end Verif.Pack
