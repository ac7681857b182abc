import Verif.Dsc.Lemmas
import Verif.Metadata.Props

/-!
C80–C84: what `ulp packer` makes of a description.
-/

namespace Verif.Dsc

open Verif.Extract (SoInfo Sym getSymbol)
open Verif.Metadata (Patch Unit' Ref)
open Verif.Metadata.Spec (All₂)
open Spec

/-! ### C80: the metadata says what the description says -/

theorem has_of_func {t c : SoInfo} {xs : List Entry} (h : ∀ x ∈ xs, x.Good t c) : ∀ u ∈ funcs xs, Has t u.1 ∧ Has c u.2 ∧ Name u.1 ∧ Name u.2 := by
  intro u hu
  simp only [funcs, List.mem_filterMap] at hu
  obtain ⟨x, hx, he⟩ := hu
  have hg := h x hx
  cases x with
  | func o n =>
    simp only [Option.some.injEq] at he
    subst he
    exact ⟨hg.2.2.2.1, hg.2.2.2.2, hg.1, hg.2.1⟩
  | _ => simp at he

theorem describe_good {d : Desc} {e : Env} {c t : SoInfo} {deps : List Bytes} (h : d.Good e c t deps) (id : Bytes) :
    ∃ us rs, describe e id d.render = .ok ⟨id, t.buildId, t.name, us, deps.reverse, rs⟩ ∧
      All₂ (UnitFor t) us (funcs d.entries) ∧ All₂ (RefFor t c) rs.reverse (refs d.entries) := by
  obtain ⟨acc, h1, h2, h3⟩ := parse_good h
  have h3 := h3 []
  simp only [List.append_nil, lines, entries, bind_ok] at h3
  obtain ⟨h4, rs, h5, h6, h7⟩ := adds_refFor h2
  simp only [List.nil_append, List.reverse_nil] at h4 h5
  obtain ⟨us, h8, h9⟩ := getTargetAddrs_has (us := funcs d.entries) (fun u hu => (has_of_func h.entries u hu).1)
  have h10 : getTargetRefAddrs t acc.refs = .ok acc.refs := by
    apply getTargetRefAddrs_resolved
    intro r hr
    exact h7 r (by rw [← h5]; simpa using hr)
  refine ⟨us, acc.refs, ?_, h9, by rw [h5]; exact h6⟩
  unfold describe
  rw [h3]
  simp only [bind_ok, h1, h4, h8, h10, pure_eq]

/-- The packer accepts every well-formed description, and the patch it makes is the one described: the target's
name and build id, each function with its replacement and the address it has in the target, each dependency, and
each reference with the offsets of its symbols or those given. -/
theorem C80_describes {d : Desc} {e : Env} {c t : SoInfo} {deps : List Bytes} (h : d.Good e c t deps) (id : Bytes) :
    ∃ p, describe e id d.render = .ok p ∧ Describes p d c t id deps := by
  obtain ⟨us, rs, h1, h2, h3⟩ := describe_good h id
  exact ⟨_, h1, rfl, rfl, rfl, h2, by simp, h3⟩

/-- The strings and sizes of a description fit their fields in the metadata. -/
structure Fits (d : Desc) (t : SoInfo) (id : Bytes) : Prop where
  id : id.length = 32
  buildId : t.buildId.length = 20
  name : Metadata.Spec.GoodStr t.name
  deps : d.deps.length < 2 ^ 32
  entries : d.entries.length < 2 ^ 32
  texts : ∀ x ∈ d.entries, x.text.length < 2 ^ 32 - 2

theorem mem_all2 {α β} {R : α → β → Prop} {l : List α} {k : List β} (h : All₂ R l k) {a : α} (ha : a ∈ l) : ∃ b ∈ k, R a b := by
  obtain ⟨i, hi, rfl⟩ := List.getElem_of_mem ha
  have hk : i < k.length := h.1 ▸ hi
  exact ⟨k[i], List.getElem_mem hk, h.2 i hi hk⟩

theorem good_describes {d : Desc} {e : Env} {c t : SoInfo} {deps : List Bytes} (h : d.Good e c t deps) {id : Bytes} (hf : Fits d t id)
    {p : Patch} (hp : Describes p d c t id deps) : Metadata.Spec.Good p := by
  have hfl : (funcs d.entries).length ≤ d.entries.length := List.length_filterMap_le ..
  have hrl : (refs d.entries).length ≤ d.entries.length := List.length_filter_le ..
  have hd := h.depFiles.1
  refine ⟨by rw [hp.id, hf.id], by rw [hp.buildId, hf.buildId]; decide, by rw [hp.name]; exact hf.name, ?_, ?_, ?_, ?_, ?_, ?_⟩
  · rw [hp.units.1]; have := hf.entries; omega
  · intro u hu
    obtain ⟨f, hf', h1, h2, s, hs, h3, h4⟩ := mem_all2 hp.units hu
    obtain ⟨-, -, n1, n2⟩ := has_of_func h.entries f hf'
    simp only [funcs, List.mem_filterMap] at hf'
    obtain ⟨x, hx, he⟩ := hf'
    have hlen := hf.texts x hx
    cases x with
    | func o n =>
      simp only [Option.some.injEq] at he
      subst he
      simp only [Entry.text, List.length_append, List.length_cons] at hlen
      refine ⟨⟨by rw [h1]; exact (name_no n1).2.1, by rw [h1]; simp only; omega⟩, ⟨by rw [h2]; exact (name_no n2).2.1, by rw [h2]; simp only; omega⟩, ?_⟩
      rw [← h4]; exact s.offset.isLt
    | _ => simp at he
  · have : p.deps.length = deps.length := by rw [← hp.deps]; simp
    have := hf.deps
    omega
  · intro x hx
    have hx : x ∈ deps := by rw [← hp.deps]; simpa using hx
    obtain ⟨i, hi, rfl⟩ := List.getElem_of_mem hx
    exact (h.depFiles.2 i (hd ▸ hi) hi).1
  · have h1 := hp.refs.1
    rw [List.length_reverse] at h1
    rw [h1]
    have := hf.entries
    omega
  · intro r hr
    obtain ⟨x, hx, hxr⟩ := mem_all2 hp.refs (by simpa using hr)
    have hx : x ∈ d.entries := by simp only [refs, List.mem_filter] at hx; exact hx.1
    have hlen := hf.texts x hx
    have hg := h.entries x hx
    cases x with
    | ref tls a b =>
      obtain ⟨-, h1, h2, ⟨s, -, -, h3⟩, s', -, -, h4⟩ := hxr
      simp only [Entry.text, List.length_append, List.length_cons] at hlen
      refine ⟨⟨by rw [h1]; exact (name_no hg.1).2.1, by rw [h1]; omega⟩, ⟨by rw [h2]; exact (name_no hg.2.1).2.1, by rw [h2]; omega⟩, ?_, ?_⟩
      · rw [← h3]; exact s.offset.isLt
      · rw [← h4]; exact s'.offset.isLt
    | refAt tls a b u v =>
      obtain ⟨-, h1, h2, h3, h4⟩ := hxr
      obtain ⟨g1, g2, -, -, -, -, g3, g4⟩ := hg
      simp only [Entry.text, List.length_append, List.length_cons] at hlen
      refine ⟨⟨by rw [h1]; exact (name_no g1).2.1, by rw [h1]; omega⟩, ⟨by rw [h2]; exact (name_no g2).2.1, by rw [h2]; omega⟩, ?_, ?_⟩
      · rw [h3]; omega
      · rw [h4]; omega
    | _ => exact hxr.elim

/-- From the description to the process: what is packed and sent is parsed by the process as a request to apply the
patch that is described. -/
theorem C80_reaches_process {d : Desc} {e : Env} {c t : SoInfo} {deps : List Bytes} (h : d.Good e c t deps) {id : Bytes}
    (hf : Fits d t id) {path : Str} (h0 : 0 ∉ path) (hne : path ≠ []) :
    ∃ p, describe e id d.render = .ok p ∧ Describes p d c t id deps ∧
      ∀ out, Metadata.extract (Metadata.packApply p) path = .ok out → ∀ rest c0,
        ∃ q st, Metadata.parse (Metadata.mem (out ++ rest)) c0 = .ok (q, st) ∧ Metadata.Spec.IsApply q p path := by
  obtain ⟨p, h1, h2⟩ := C80_describes h id
  refine ⟨p, h1, h2, fun out hx rest c0 => ?_⟩
  obtain ⟨q, st, h3, h4, -⟩ := Metadata.C13_roundtrip (good_describes h hf h2) h0 hne hx rest c0
  exact ⟨q, st, h3, h4⟩

/-! ### C81: only functions that are there -/

theorem lines_flatten (b : Bytes) : (lines b).flatten = b := by
  induction b with
  | nil => rfl
  | cons c cs ih =>
    rw [lines]
    split
    · simp [ih]
    · split
      · rename_i h; rw [h] at ih; simp at ih; simp [← ih]
      · rename_i h; rw [h] at ih; simp at ih; simp [← ih]

/-- Each line ends at its first newline. -/
theorem lines_newline {b : Bytes} {l : Str} (h : l ∈ lines b) : 10 ∉ l.dropLast := by
  induction b generalizing l with
  | nil => simp [lines] at h
  | cons c cs ih =>
    rw [lines] at h
    split at h
    · rcases List.mem_cons.mp h with rfl | h
      · simp
      · exact ih h
    · rename_i hc
      split at h
      · simp at h; subst h; simp
      · rename_i l' ls' heq
        rcases List.mem_cons.mp h with rfl | h
        · have hl' : l' ∈ lines cs := by rw [heq]; simp
          have := ih hl'
          have hne := lines_ne_nil hl'
          rw [List.dropLast_cons_of_ne_nil hne]
          intro hm
          rcases List.mem_cons.mp hm with hm | hm
          · exact hc hm.symm
          · exact this hm
        · exact ih (by rw [heq]; simp [h])

theorem takeWhile_congr {α} {p q : α → Bool} {l : List α} (h : ∀ a ∈ l, p a = q a) : l.takeWhile p = l.takeWhile q := by
  induction l with
  | nil => rfl
  | cons a l ih => rw [List.takeWhile_cons, List.takeWhile_cons, h a (by simp), ih (fun x hx => h x (by simp [hx]))]

theorem takeWhile_append_stop {α} {p : α → Bool} {l : List α} {a : α} (h : p a = false) : (l ++ [a]).takeWhile p = l.takeWhile p := by
  induction l with
  | nil => simp [h]
  | cons b l ih => simp only [List.cons_append, List.takeWhile_cons, ih]

theorem chomp_textOf {b : Bytes} {l : Str} (h : l ∈ lines b) : chomp l = textOf l := by
  have h10 := lines_newline h
  have hne := lines_ne_nil h
  have hl := List.dropLast_concat_getLast hne
  unfold chomp cstr textOf
  by_cases h' : l.getLast? = some 10
  · rw [if_pos h']
    rw [List.getLast?_eq_getLast hne, Option.some.injEq] at h'
    rw [h'] at hl
    conv => rhs; rw [← hl, takeWhile_append_stop (by rfl)]
    refine takeWhile_congr fun x hx => ?_
    have : x ≠ 10 := fun hc => h10 (hc ▸ hx)
    simp [this]
  · rw [if_neg h']
    refine takeWhile_congr fun x hx => ?_
    have : x ≠ 10 := by
      rintro rfl
      rw [← hl] at hx
      rcases List.mem_append.mp hx with hx | hx
      · exact h10 hx
      · apply h'
        rw [List.getLast?_eq_getLast hne]
        rw [List.mem_singleton] at hx
        rw [← hx]
    simp [this]

theorem openInfo_ok {e : Env} {path : Str} {i : SoInfo} (h : openInfo e path = .ok i) : IsLib e path i := by
  unfold openInfo at h
  split at h
  · exact absurd h (by simp)
  · rename_i f hf
    split at h
    · exact absurd h (by simp)
    · rename_i hd
      split at h
      · exact absurd h (by simp)
      · rename_i j hj
        injection h with h
        exact ⟨f, hf, by simpa using hd, by rw [hj, h]⟩

theorem readContainer_ok {e : Env} {ls post : List Str} {c : SoInfo} (h : readContainer e ls = .ok (c, post)) :
    ∃ pre l, ls = pre ++ l :: post ∧ (∀ x ∈ pre, IsRemark x) ∧ ¬ IsRemark l ∧ IsLib e (e.livepatch.getD (chomp l)) c := by
  induction ls with
  | nil => exact absurd h (by simp [readContainer])
  | cons l ls ih =>
    rw [readContainer] at h
    split at h
    · rename_i hr
      obtain ⟨pre, l', h1, h2, h3⟩ := ih h
      refine ⟨l :: pre, l', by rw [h1]; rfl, ?_, h3⟩
      intro x hx
      rcases List.mem_cons.mp hx with rfl | hx
      · exact hr
      · exact h2 x hx
    · rename_i hr
      obtain ⟨i, hi, he⟩ := bind_eq_ok.mp h
      simp only [pure_eq, Res.ok.injEq, Prod.mk.injEq] at he
      obtain ⟨rfl, rfl⟩ := he
      exact ⟨[], l, rfl, by simp, hr, openInfo_ok hi⟩

theorem readDeps_suffix {e : Env} {ls post : List Str} {acc deps : List Bytes} (h : readDeps e ls acc = .ok (deps, post)) :
    ∃ pre, ls = pre ++ post ∧ ∀ l ∈ pre, l.head? = some 42 := by
  induction ls generalizing acc with
  | nil =>
    simp only [readDeps, Res.ok.injEq, Prod.mk.injEq] at h
    exact ⟨[], by rw [← h.2]; rfl, by simp⟩
  | cons l ls ih =>
    rw [readDeps] at h
    split at h
    · rename_i hl
      obtain ⟨i, -, he⟩ := bind_eq_ok.mp h
      obtain ⟨pre, h1, h2⟩ := ih he
      refine ⟨l :: pre, by rw [h1]; rfl, ?_⟩
      intro x hx
      rcases List.mem_cons.mp hx with rfl | hx
      · exact hl
      · exact h2 x hx
    · simp only [Res.ok.injEq, Prod.mk.injEq] at h
      exact ⟨[], by rw [← h.2]; rfl, by simp⟩

theorem strchr_ok {s a b : Str} (h : strchr s = some (a, b)) : s = a ++ 58 :: b ∧ 58 ∉ a := by
  induction s generalizing a with
  | nil => simp [strchr] at h
  | cons x s ih =>
    rw [strchr] at h
    split at h
    · rename_i hx
      simp only [Option.some.injEq, Prod.mk.injEq] at h
      obtain ⟨rfl, rfl⟩ := h
      exact ⟨by rw [hx]; rfl, by simp⟩
    · rename_i hx
      rw [Option.map_eq_some_iff] at h
      obtain ⟨⟨a', b'⟩, h1, h2⟩ := h
      simp only [Prod.mk.injEq] at h2
      obtain ⟨rfl, rfl⟩ := h2
      obtain ⟨h3, h4⟩ := ih h1
      refine ⟨by rw [h3]; rfl, ?_⟩
      intro hm
      rcases List.mem_cons.mp hm with hm | hm
      · exact hx hm.symm
      · exact h4 hm

theorem strchr_none_iff {s : Str} : strchr s = none ↔ 58 ∉ s := by
  refine ⟨fun h => ?_, strchr_none⟩
  induction s with
  | nil => simp
  | cons x s ih =>
    rw [strchr] at h
    split at h
    · simp at h
    · rename_i hx
      rw [Option.map_eq_none_iff] at h
      intro hm
      rcases List.mem_cons.mp hm with hm | hm
      · exact hx hm.symm
      · exact ih h hm

theorem mem_takeWhile {α} {p : α → Bool} {l : List α} {a : α} (h : a ∈ l.takeWhile p) : p a = true := by
  induction l with
  | nil => simp at h
  | cons b l ih =>
    rw [List.takeWhile_cons] at h
    split at h
    · rename_i hb
      rcases List.mem_cons.mp h with rfl | h
      · exact hb
      · exact ih h
    · simp at h

theorem dropWhile_head {α} {p : α → Bool} {l : List α} : ∀ a ∈ (l.dropWhile p).head?, p a = false := by
  induction l with
  | nil => simp
  | cons b l ih =>
    intro a ha
    rw [List.dropWhile_cons] at ha
    split at ha
    · exact ih a ha
    · rename_i hb
      simp at ha
      subst ha
      simpa using hb

theorem funcLine_ok {t c : SoInfo} {l : Str} {o n : Str} (h : funcLine t c (textOf l) = .ok (o, n)) :
    SaysFunc l o n ∧ Has t o ∧ Has c n := by
  unfold funcLine at h
  split at h
  · exact absurd h (by simp)
  rename_i hne
  split at h
  · exact absurd h (by simp)
  split at h
  · exact absurd h (by simp)
  rename_i h58
  simp only at h
  split at h
  · exact absurd h (by simp)
  rename_i s hs
  split at h
  · exact absurd h (by simp)
  rename_i hn
  split at h
  · exact absurd h (by simp)
  rename_i s' hs'
  simp only [Res.ok.injEq, Prod.mk.injEq] at h
  obtain ⟨rfl, rfl⟩ := h
  have hasOf : ∀ {i : SoInfo} {n : Str} {s : Sym}, getSymbol i n = some s → Has i n := by
    intro i n s hs
    obtain ⟨x, hx, hn, -⟩ := getSymbol_at hs
    exact ⟨x, hx, hn⟩
  refine ⟨?_, hasOf hs, hasOf hs'⟩
  unfold SaysFunc
  generalize textOf l = x at *
  have hD := dropWhile_head (p := fun c : UInt8 => c != 58) (l := x)
  have hx := List.takeWhile_append_dropWhile (p := fun c : UInt8 => c != 58) (l := x)
  generalize x.dropWhile (· != 58) = D at *
  have hD2 := List.takeWhile_append_dropWhile (p := fun c : UInt8 => c == 58) (l := D)
  have hrep : ∃ k, D.takeWhile (· == 58) = List.replicate k 58 :=
    ⟨_, List.eq_replicate_iff.mpr ⟨rfl, fun b hb => by simpa using mem_takeWhile hb⟩⟩
  obtain ⟨k, hk⟩ := hrep
  have hk0 : k ≠ 0 := by
    rintro rfl
    cases D with
    | nil => simp at hn
    | cons a D' =>
      have ha := hD a (by simp)
      rw [List.takeWhile_cons] at hk
      simp at ha
      simp [ha] at hk
  obtain ⟨k, rfl⟩ := Nat.exists_eq_succ_of_ne_zero hk0
  generalize hE : D.dropWhile (· == 58) = E at *
  have hE2 := List.takeWhile_append_dropWhile (p := fun c : UInt8 => c != 58) (l := E)
  have hE3 := dropWhile_head (p := fun c : UInt8 => c != 58) (l := E)
  refine ⟨k, E.dropWhile (· != 58), ?_, ?_, ?_, ?_, hn, ?_⟩
  · conv => lhs; rw [← hx, ← hD2, hk, ← hE2]
    simp only [List.append_assoc, Nat.succ_eq_add_one]
  · intro hm; simpa using mem_takeWhile hm
  · intro hm; simpa using mem_takeWhile hm
  · intro h0
    rw [h0, List.nil_append] at hx
    subst hx
    cases D with
    | nil => exact hne rfl
    | cons a D' =>
      have ha := hD a (by simp)
      simp at ha
      exact h58 (by simp [ha])
  · cases hr : E.dropWhile (· != 58) with
    | nil => exact Or.inl rfl
    | cons a r =>
      have ha := hE3 a (by rw [hr]; simp)
      simp at ha
      exact Or.inr (by simp [ha])

theorem tlsMark_eq (s : Str) : ∃ tls x, tlsMark s = (tls, x) ∧ 35 :: s = mark tls ++ x := by
  unfold tlsMark
  split
  · exact ⟨true, _, rfl, rfl⟩
  · exact ⟨false, _, rfl, rfl⟩

theorem refLine_ok {t c : SoInfo} {l s : Str} {r : Ref} (hl : textOf l = 35 :: s) (h : refLine t c s = .ok r) :
    ∃ rest, SaysRef l r.tls r.targetName r.referenceName rest ∧
      (rest = [] → Spec.At t r.targetName r.targetOffset ∧ Spec.At c r.referenceName r.patchOffset) := by
  obtain ⟨tls, x, h1, h2⟩ := tlsMark_eq s
  unfold refLine at h
  rw [h1] at h
  simp only at h
  split at h
  · exact absurd h (by simp)
  rename_i tname rest ht
  obtain ⟨rfl, ht58⟩ := strchr_ok ht
  split at h
  · rename_i hnone
    split at h
    · exact absurd h (by simp)
    rename_i a ha
    split at h
    · exact absurd h (by simp)
    rename_i b hb
    injection h with h
    subst h
    refine ⟨[], ⟨by simp [hl, h2], ht58, strchr_none_iff.mp hnone, Or.inl rfl⟩, fun _ => ⟨getSymbol_at ha, getSymbol_at hb⟩⟩
  · rename_i rname rest' hr
    obtain ⟨rfl, hr58⟩ := strchr_ok hr
    split at h
    · exact absurd h (by simp)
    injection h with h
    subst h
    exact ⟨58 :: rest', ⟨by simp [hl, h2], ht58, hr58, Or.inr rfl⟩, fun hc => by simp at hc⟩

/-- What is known of what was read so far. -/
structure Sound (e : Env) (c : SoInfo) (L : List Str) (acc : Acc) : Prop where
  target : ∀ t, acc.obj = some t → Target e L t
  units : ∀ u ∈ acc.units, ∃ t, acc.obj = some t ∧ (∃ l ∈ L, SaysFunc l u.1 u.2) ∧ Has t u.1 ∧ Has c u.2
  refs : ∀ r ∈ acc.refs, ∃ t, acc.obj = some t ∧ ∃ l ∈ L, ∃ rest, SaysRef l r.tls r.targetName r.referenceName rest ∧
    (rest = [] → Spec.At t r.targetName r.targetOffset ∧ Spec.At c r.referenceName r.patchOffset)

theorem textOf_head {l : Str} {x : UInt8} (h : l.head? = some x) (h10 : x ≠ 10) (h0 : x ≠ 0) : ∃ s, textOf l = x :: s := by
  cases l with
  | nil => simp at h
  | cons a l =>
    simp at h
    subst h
    exact ⟨textOf l, by simp [textOf, List.takeWhile_cons, h10, h0]⟩

theorem entry_sound {e : Env} {c : SoInfo} {b : Bytes} {acc acc' : Acc} {l : Str} (hl : l ∈ lines b) (h : Sound e c (lines b) acc)
    (hok : entry e c acc l = .ok acc') : Sound e c (lines b) acc' := by
  unfold entry at hok
  rw [chomp_textOf hl] at hok
  split at hok
  · injection hok with hok; subst hok; exact h
  split at hok
  · rename_i h64
    split at hok
    · exact absurd hok (by simp)
    rename_i hnone
    simp only at hok
    split at hok
    · exact absurd hok (by simp)
    obtain ⟨i, hi, he⟩ := bind_eq_ok.mp hok
    simp only [pure_eq, Res.ok.injEq] at he
    subst he
    have hn : acc.obj = none := by simpa using hnone
    refine ⟨?_, ?_, ?_⟩
    · intro t ht
      simp at ht
      subst ht
      exact ⟨l, hl, h64, openInfo_ok hi⟩
    · intro u hu
      obtain ⟨t, ht, -⟩ := h.units u hu
      rw [hn] at ht
      simp at ht
    · intro r hr
      obtain ⟨t, ht, -⟩ := h.refs r hr
      rw [hn] at ht
      simp at ht
  split at hok
  · exact absurd hok (by simp)
  rename_i t ht
  split at hok
  · rename_i h35
    obtain ⟨r, hr, he⟩ := bind_eq_ok.mp hok
    simp only [pure_eq, Res.ok.injEq] at he
    subst he
    refine ⟨h.target, h.units, ?_⟩
    intro r' hr'
    rcases List.mem_cons.mp hr' with rfl | hr'
    · obtain ⟨s, hs⟩ := textOf_head h35 (by decide) (by decide)
      rw [hs] at hr
      obtain ⟨rest, h1, h2⟩ := refLine_ok hs hr
      exact ⟨t, ht, l, hl, rest, h1, h2⟩
    · exact h.refs r' hr'
  · obtain ⟨u, hu, he⟩ := bind_eq_ok.mp hok
    simp only [pure_eq, Res.ok.injEq] at he
    subst he
    refine ⟨h.target, ?_, h.refs⟩
    intro u' hu'
    rcases List.mem_append.mp hu' with hu' | hu'
    · exact h.units u' hu'
    · rw [List.mem_singleton] at hu'
      subst hu'
      obtain ⟨h1, h2, h3⟩ := funcLine_ok hu
      exact ⟨t, ht, ⟨l, hl, h1⟩, h2, h3⟩

theorem entries_sound {e : Env} {c : SoInfo} {b : Bytes} {ls : List Str} (hls : ∀ l ∈ ls, l ∈ lines b) {acc acc' : Acc}
    (h : Sound e c (lines b) acc) (hok : entries e c ls acc = .ok acc') : Sound e c (lines b) acc' := by
  induction ls generalizing acc with
  | nil => simp only [entries, Res.ok.injEq] at hok; subst hok; exact h
  | cons l ls ih =>
    rw [entries] at hok
    obtain ⟨a, ha, he⟩ := bind_eq_ok.mp hok
    exact ih (fun x hx => hls x (by simp [hx])) (entry_sound (hls l (by simp)) h ha) he

theorem getTargetAddrs_ok {t : SoInfo} {us : List (Str × Str)} {vs : List Unit'} (h : getTargetAddrs t us = .ok vs) :
    All₂ (UnitFor t) vs us := by
  induction us generalizing vs with
  | nil => simp only [getTargetAddrs, Res.ok.injEq] at h; subst h; exact all2_nil _
  | cons u us ih =>
    obtain ⟨o, n⟩ := u
    rw [getTargetAddrs] at h
    split at h
    · exact absurd h (by simp)
    rename_i s hs
    obtain ⟨rest, h1, h2⟩ := bind_eq_ok.mp h
    simp only [pure_eq, Res.ok.injEq] at h2
    subst h2
    exact all2_cons.mpr ⟨⟨rfl, rfl, getSymbol_at hs⟩, ih h1⟩

/-- Looking up the offsets that are zero leaves the rest of a reference alone. -/
def SameRef (t : SoInfo) (r r' : Ref) : Prop :=
  r.targetName = r'.targetName ∧ r.referenceName = r'.referenceName ∧ r.tls = r'.tls ∧ r.patchOffset = r'.patchOffset ∧
    (r.targetOffset = r'.targetOffset ∨ Spec.At t r.targetName r.targetOffset)

theorem getTargetRefAddrs_ok {t : SoInfo} {rs rs' : List Ref} (h : getTargetRefAddrs t rs = .ok rs') : All₂ (SameRef t) rs' rs := by
  induction rs generalizing rs' with
  | nil => simp only [getTargetRefAddrs, Res.ok.injEq] at h; subst h; exact all2_nil _
  | cons r rs ih =>
    rw [getTargetRefAddrs] at h
    split at h
    · obtain ⟨rest, h1, h2⟩ := bind_eq_ok.mp h
      simp only [pure_eq, Res.ok.injEq] at h2
      subst h2
      exact all2_cons.mpr ⟨⟨rfl, rfl, rfl, rfl, Or.inl rfl⟩, ih h1⟩
    · split at h
      · exact absurd h (by simp)
      rename_i s hs
      obtain ⟨rest, h1, h2⟩ := bind_eq_ok.mp h
      simp only [pure_eq, Res.ok.injEq] at h2
      subst h2
      exact all2_cons.mpr ⟨⟨rfl, rfl, rfl, rfl, Or.inr (getSymbol_at hs)⟩, ih h1⟩

/-- Whatever the description, if the packer accepts it: the container is the one named, the target is the one named,
and each function and each reference in the metadata is one of the description; the function to replace has a symbol
in the target, with the address recorded, and the replacement one in the container; so do references without
explicit offsets. -/
theorem C81_accepted_partial {e : Env} {id content : Bytes} {p : Patch} (h : describe e id content = .ok p) :
    ∃ c t, Container e (lines content) c ∧ Target e (lines content) t ∧ p.buildId = t.buildId ∧ p.name = t.name ∧
      (∀ u ∈ p.units, (∃ l ∈ lines content, SaysFunc l u.oldFname u.newFname) ∧ Spec.At t u.oldFname u.oldFaddr ∧ Has c u.newFname) ∧
      ∀ r ∈ p.refs, ∃ l ∈ lines content, ∃ rest, SaysRef l r.tls r.targetName r.referenceName rest ∧
        (rest = [] → Spec.At t r.targetName r.targetOffset ∧ Spec.At c r.referenceName r.patchOffset) := by
  unfold describe at h
  obtain ⟨⟨deps, acc⟩, h1, h2⟩ := bind_eq_ok.mp h
  unfold parseDescription at h1
  obtain ⟨⟨c, ls⟩, h3, h4⟩ := bind_eq_ok.mp h1
  simp only at h4
  obtain ⟨⟨deps', ls'⟩, h5, h6⟩ := bind_eq_ok.mp h4
  simp only at h6
  obtain ⟨acc', h7, h8⟩ := bind_eq_ok.mp h6
  simp only [pure_eq, Res.ok.injEq, Prod.mk.injEq] at h8
  obtain ⟨rfl, rfl⟩ := h8
  simp only at h2
  split at h2
  · exact absurd h2 (by simp)
  rename_i t ht
  obtain ⟨us, h9, h10⟩ := bind_eq_ok.mp h2
  obtain ⟨rs, h11, h12⟩ := bind_eq_ok.mp h10
  simp only [pure_eq, Res.ok.injEq] at h12
  subst h12
  obtain ⟨pre, l, hl1, hl2, hl3, hl4⟩ := readContainer_ok h3
  obtain ⟨pre', hl5, -⟩ := readDeps_suffix h5
  have hmem : ∀ x ∈ ls', x ∈ lines content := by
    intro x hx
    rw [hl1, hl5]
    simp [hx]
  have hs := entries_sound hmem (acc := ⟨none, [], []⟩) ⟨by simp, by simp, by simp⟩ h7
  refine ⟨c, t, ⟨pre, l, ls, hl1, hl2, hl3, ?_⟩, hs.target t ht, rfl, rfl, ?_, ?_⟩
  · rw [← chomp_textOf (b := content) (by rw [hl1]; simp)]
    exact hl4
  · intro u hu
    obtain ⟨f, hf, g1, g2, g3⟩ := mem_all2 (getTargetAddrs_ok h9) hu
    obtain ⟨t', ht', k1, k2, k3⟩ := hs.units f hf
    rw [g1, g2]
    exact ⟨k1, g3, k3⟩
  · intro r hr
    obtain ⟨r', hr', g1, g2, g3, g4, g5⟩ := mem_all2 (getTargetRefAddrs_ok h11) hr
    obtain ⟨t', ht', l', hl', rest, k1, k2⟩ := hs.refs r' hr'
    rw [ht] at ht'
    injection ht' with ht'
    subst ht'
    refine ⟨l', hl', rest, by rw [g1, g2, g3]; exact k1, fun h0 => ?_⟩
    obtain ⟨m1, m2⟩ := k2 h0
    refine ⟨?_, by rw [g2, g4]; exact m2⟩
    rcases g5 with g5 | g5
    · rw [g1, g5]; exact m1
    · exact g5

/-- But a function that the target only uses, and takes from elsewhere, counts as one of its own: the description is
accepted, and the address to patch is 0, the start of the library. -/
theorem C81_imported_function_accepted {d : Desc} {e : Env} {c t : SoInfo} {deps : List Bytes} (h : d.Good e c t deps) (id : Bytes)
    {elf : Extract.Elf} (ht : t.symbols = Extract.buildSymbolsList elf) {raws : List Extract.RawSym}
    (hdyn : elf.dynsym = some raws) (hsym : elf.symtab = none) {old new : Str}
    (honly : ∀ r ∈ raws, r.name = old → r.shndx = 0 ∧ r.value = 0) (hf : (old, new) ∈ funcs d.entries) :
    ∃ p, describe e id d.render = .ok p ∧ ∃ u ∈ p.units, u.oldFname = old ∧ u.newFname = new ∧ u.oldFaddr = 0 := by
  obtain ⟨p, h1, h2⟩ := C80_describes h id
  refine ⟨p, h1, ?_⟩
  obtain ⟨i, hi, hfi⟩ := List.getElem_of_mem hf
  have hi' : i < p.units.length := h2.units.1 ▸ hi
  obtain ⟨g1, g2, s, hs, g3, g4⟩ := h2.units.2 i hi' hi
  rw [hfi] at g1 g2 g3
  refine ⟨_, List.getElem_mem hi', g1, g2, ?_⟩
  rw [← g4]
  have key : ∀ (l : List Extract.RawSym) (acc : List Sym), s ∈ l.foldl (fun acc r => if r.name = [] then acc else Extract.mkSym r :: acc) acc →
      s ∈ acc ∨ ∃ r ∈ l, s = Extract.mkSym r := by
    intro l
    induction l with
    | nil => intro acc h; exact Or.inl h
    | cons r l ih =>
      intro acc h
      rw [List.foldl_cons] at h
      rcases ih _ h with h | ⟨r', hr', h⟩
      · split at h
        · exact Or.inl h
        · rcases List.mem_cons.mp h with h | h
          · exact Or.inr ⟨r, by simp, h⟩
          · exact Or.inl h
      · exact Or.inr ⟨r', by simp [hr'], h⟩
  rw [ht, Extract.buildSymbolsList, hdyn, hsym] at hs
  simp only [Extract.listOfSymbols, List.append_nil] at hs
  rcases key _ _ hs with h | ⟨r, hr, rfl⟩
  · simp at h
  · have := (honly r hr g3).2
    simp [Extract.mkSym, this]

/-! ### C82: no description makes the packer touch invalid memory -/

theorem count_strchr {s a b : Str} (h : strchr s = some (a, b)) : s.count 58 = b.count 58 + 1 := by
  obtain ⟨rfl, ha⟩ := strchr_ok h
  rw [List.count_append, List.count_cons_self, List.count_eq_zero_of_not_mem ha]
  omega

theorem refLine_safe (t c : SoInfo) {s : Str} (h : s.count 58 = 1 ∨ 3 ≤ s.count 58) : refLine t c s ≠ .null ∧ refLine t c s ≠ .ub := by
  obtain ⟨tls, x, h1, h2⟩ := tlsMark_eq s
  have hc : x.count 58 = s.count 58 := by
    have := congrArg (List.count 58) h2
    rw [List.count_append] at this
    have hm : (mark tls).count 58 = 0 := by cases tls <;> decide
    rw [hm, List.count_cons_of_ne (by decide)] at this
    omega
  unfold refLine
  rw [h1]
  simp only
  cases hs : strchr x with
  | none =>
    have := List.count_eq_zero_of_not_mem (strchr_none_iff.mp hs)
    omega
  | some p =>
    obtain ⟨a, b⟩ := p
    have h3 := count_strchr hs
    simp only
    cases hs2 : strchr b with
    | none =>
      simp only
      cases getSymbol t a with
      | none => simp
      | some y => cases getSymbol c b <;> simp
    | some p =>
      obtain ⟨a', b'⟩ := p
      have h4 := count_strchr hs2
      simp only
      cases hs3 : strchr b' with
      | none =>
        have := List.count_eq_zero_of_not_mem (strchr_none_iff.mp hs3)
        omega
      | some p => simp

theorem funcLine_safe (t c : SoInfo) {x : UInt8} {s : Str} (h : x ≠ 58) : funcLine t c (x :: s) ≠ .null ∧ funcLine t c (x :: s) ≠ .ub := by
  unfold funcLine
  rw [if_neg (by simp)]
  split
  · simp
  rw [if_neg (by simpa using h)]
  simp only
  split
  · simp
  split
  · simp
  split <;> simp

theorem bind_safe {α β} {m : Res α} {f : α → Res β} (h1 : m ≠ .null ∧ m ≠ .ub) (h2 : ∀ a, m = .ok a → f a ≠ .null ∧ f a ≠ .ub) :
    (m >>= f) ≠ .null ∧ (m >>= f) ≠ .ub := by
  cases m with
  | ok a => exact h2 a rfl
  | err => simp
  | null => exact absurd rfl h1.1
  | ub => exact absurd rfl h1.2

theorem openInfo_safe (e : Env) (path : Str) : openInfo e path ≠ .null ∧ openInfo e path ≠ .ub := by
  unfold openInfo
  split
  · simp
  · split
    · simp
    · split <;> simp

/-- The line can be read safely. -/
structure SafeLine (e : Env) (l : Str) : Prop where
  nul : 0 ∉ l
  colon : l.head? ≠ some 58
  ref : l.head? = some 35 → l.count 58 = 1 ∨ 3 ≤ l.count 58
  path : l.head? = some 64 → l.length ≤ 4096

theorem textOf_length (l : Str) : (textOf l).length ≤ l.length := (List.takeWhile_prefix _).length_le

theorem textOf_count {b : Bytes} {l : Str} (hl : l ∈ lines b) (h0 : 0 ∉ l) : (textOf l).count 58 = l.count 58 := by
  rw [← chomp_textOf hl]
  unfold chomp
  split
  · rename_i h
    have hne := lines_ne_nil hl
    rw [List.getLast?_eq_getLast hne, Option.some.injEq] at h
    rw [cstr_eq (fun hm => h0 ((List.dropLast_subset l) hm))]
    conv => rhs; rw [← List.dropLast_concat_getLast hne, h, List.count_append]
    simp
  · rw [cstr_eq h0]

theorem entry_safe {e : Env} (c : SoInfo) {b : Bytes} {l : Str} (acc : Acc) (hl : l ∈ lines b) (h : SafeLine e l)
    (ht : ∀ p, e.target = some p → p.length < 4096) : entry e c acc l ≠ .null ∧ entry e c acc l ≠ .ub := by
  unfold entry
  rw [chomp_textOf hl]
  split
  · simp
  rename_i hr
  split
  · rename_i h64
    split
    · simp
    simp only
    rw [if_neg]
    · exact bind_safe (openInfo_safe _ _) (fun a _ => by simp)
    · unfold pathMax
      cases he : e.target with
      | some p => have := ht p he; simp only [Option.getD_some]; omega
      | none =>
        have h1 := h.path h64
        have h2 := textOf_length l
        obtain ⟨s, hs⟩ := textOf_head h64 (by decide) (by decide)
        rw [Option.getD_none, List.length_drop]
        rw [hs] at h2 ⊢
        simp only [List.length_cons] at h2 ⊢
        omega
  split
  · simp
  rename_i t ht
  split
  · rename_i h35
    refine bind_safe (refLine_safe _ _ ?_) (fun a _ => by simp)
    obtain ⟨s, hs⟩ := textOf_head h35 (by decide) (by decide)
    have := textOf_count hl h.nul
    rw [hs] at this ⊢
    rw [List.count_cons_of_ne (by decide)] at this
    rw [List.drop_one, List.tail_cons, this]
    exact h.ref h35
  · cases l with
    | nil => exact absurd rfl (lines_ne_nil hl)
    | cons x s =>
      obtain ⟨s', hs'⟩ := textOf_head (l := x :: s) (x := x) rfl (fun hx => hr (Or.inl (by rw [hx]; rfl))) (fun hx => h.nul (by rw [hx]; simp))
      rw [hs']
      refine bind_safe (funcLine_safe _ _ ?_) (fun a _ => by simp)
      intro hx
      exact h.colon (by rw [hx]; rfl)

theorem entries_safe {e : Env} (c : SoInfo) {b : Bytes} {ls : List Str} (acc : Acc) (hl : ∀ l ∈ ls, l ∈ lines b) (h : ∀ l ∈ ls, SafeLine e l)
    (ht : ∀ p, e.target = some p → p.length < 4096) : entries e c ls acc ≠ .null ∧ entries e c ls acc ≠ .ub := by
  induction ls generalizing acc with
  | nil => simp [entries]
  | cons l ls ih =>
    rw [entries]
    exact bind_safe (entry_safe c acc (hl l (by simp)) (h l (by simp)) ht)
      (fun a _ => ih a (fun x hx => hl x (by simp [hx])) (fun x hx => h x (by simp [hx])))

theorem entries_obj {e : Env} {c : SoInfo} {ls : List Str} {acc acc' : Acc} (h : entries e c ls acc = .ok acc') :
    (acc.obj.isSome → acc'.obj.isSome) ∧ ((∃ l ∈ ls, l.head? = some 64) → acc'.obj.isSome) := by
  induction ls generalizing acc with
  | nil =>
    simp only [entries, Res.ok.injEq] at h
    subst h
    simp
  | cons l ls ih =>
    rw [entries] at h
    obtain ⟨a, h1, h2⟩ := bind_eq_ok.mp h
    obtain ⟨h3, h4⟩ := ih h2
    have h5 : (acc.obj.isSome → a.obj.isSome) ∧ (l.head? = some 64 → a.obj.isSome) := by
      unfold entry at h1
      split at h1
      · rename_i hr
        injection h1 with h1
        subst h1
        refine ⟨_root_.id, fun h => ?_⟩
        rw [h] at hr
        simp at hr
      split at h1
      · split at h1
        · exact absurd h1 (by simp)
        simp only at h1
        split at h1
        · exact absurd h1 (by simp)
        obtain ⟨i, -, he⟩ := bind_eq_ok.mp h1
        simp only [pure_eq, Res.ok.injEq] at he
        subst he
        simp
      rename_i h64
      split at h1
      · exact absurd h1 (by simp)
      rename_i t ht
      split at h1
      · obtain ⟨i, -, he⟩ := bind_eq_ok.mp h1
        simp only [pure_eq, Res.ok.injEq] at he
        subst he
        exact ⟨_root_.id, fun h => absurd h h64⟩
      · obtain ⟨i, -, he⟩ := bind_eq_ok.mp h1
        simp only [pure_eq, Res.ok.injEq] at he
        subst he
        exact ⟨_root_.id, fun h => absurd h h64⟩
    refine ⟨fun h => h3 (h5.1 h), ?_⟩
    rintro ⟨x, hx, hx64⟩
    rcases List.mem_cons.mp hx with rfl | hx
    · exact h3 (h5.2 hx64)
    · exact h4 ⟨x, hx, hx64⟩

theorem readContainer_safe (e : Env) (ls : List Str) : readContainer e ls ≠ .null ∧ readContainer e ls ≠ .ub := by
  induction ls with
  | nil => simp [readContainer]
  | cons l ls ih =>
    rw [readContainer]
    split
    · exact ih
    · exact bind_safe (openInfo_safe _ _) (fun a _ => by simp)

theorem addDependency_safe (e : Env) (path : Str) : addDependency e path ≠ .null ∧ addDependency e path ≠ .ub := by
  unfold addDependency
  split
  · simp
  · split
    · simp
    · split
      · simp
      · split <;> simp

theorem readDeps_safe (e : Env) (ls : List Str) (acc : List Bytes) : readDeps e ls acc ≠ .null ∧ readDeps e ls acc ≠ .ub := by
  induction ls generalizing acc with
  | nil => simp [readDeps]
  | cons l ls ih =>
    rw [readDeps]
    split
    · exact bind_safe (addDependency_safe _ _) (fun a _ => ih _)
    · simp

theorem getTargetAddrs_safe (t : SoInfo) (us : List (Str × Str)) : getTargetAddrs t us ≠ .null ∧ getTargetAddrs t us ≠ .ub := by
  induction us with
  | nil => simp [getTargetAddrs]
  | cons u us ih =>
    obtain ⟨o, n⟩ := u
    rw [getTargetAddrs]
    split
    · simp
    · exact bind_safe ih (fun a _ => by simp)

theorem getTargetRefAddrs_safe (t : SoInfo) (rs : List Ref) : getTargetRefAddrs t rs ≠ .null ∧ getTargetRefAddrs t rs ≠ .ub := by
  induction rs with
  | nil => simp [getTargetRefAddrs]
  | cons r rs ih =>
    rw [getTargetRefAddrs]
    split
    · exact bind_safe ih (fun a _ => by simp)
    · split
      · simp
      · exact bind_safe ih (fun a _ => by simp)

/-- A description whose lines can be read safely, and which has a target line after its container, is read without
touching invalid memory, whatever the files are and whatever else it says.  Missing: all others, see below. -/
theorem C82_safe_partial {e : Env} {content : Bytes} (id : Bytes) (hl : ∀ l ∈ lines content, SafeLine e l)
    (ht : ∀ p, e.target = some p → p.length < 4096)
    (h64 : ∃ pre l post, lines content = pre ++ l :: post ∧ ¬ IsRemark l ∧ ∃ x ∈ post, x.head? = some 64) :
    describe e id content ≠ .null ∧ describe e id content ≠ .ub := by
  unfold describe
  have hp : parseDescription e content ≠ .null ∧ parseDescription e content ≠ .ub := by
    unfold parseDescription
    refine bind_safe (readContainer_safe _ _) ?_
    rintro ⟨c, ls⟩ h1
    refine bind_safe (readDeps_safe _ _ _) ?_
    rintro ⟨deps, ls'⟩ h2
    obtain ⟨pre, l, hl1, -⟩ := readContainer_ok h1
    obtain ⟨pre', hl2, -⟩ := readDeps_suffix h2
    have hm : ∀ x ∈ ls', x ∈ lines content := by intro x hx; rw [hl1, hl2]; simp [hx]
    exact bind_safe (entries_safe c _ hm (fun x hx => hl x (hm x hx)) ht) (fun a _ => by simp)
  refine bind_safe hp ?_
  rintro ⟨deps, acc⟩ h
  have hobj : acc.obj.isSome := by
    unfold parseDescription at h
    obtain ⟨⟨c, ls⟩, h3, h4⟩ := bind_eq_ok.mp h
    simp only at h4
    obtain ⟨⟨deps', ls'⟩, h5, h6⟩ := bind_eq_ok.mp h4
    simp only at h6
    obtain ⟨acc', h7, h8⟩ := bind_eq_ok.mp h6
    simp only [pure_eq, Res.ok.injEq, Prod.mk.injEq] at h8
    obtain ⟨rfl, rfl⟩ := h8
    refine (entries_obj h7).2 ?_
    obtain ⟨pre, l, hl1, hl2, -⟩ := readContainer_ok h3
    obtain ⟨pre', hl3, hl4⟩ := readDeps_suffix h5
    obtain ⟨pre2, l2, post2, hc, hnr, x, hx, hx64⟩ := h64
    have hx' : x ∈ ls := by
      rw [hl1, List.append_eq_append_iff] at hc
      rcases hc with ⟨a', ha1, ha2⟩ | ⟨a', ha1, ha2⟩
      · cases a' with
        | nil =>
          simp only [List.nil_append, List.cons.injEq] at ha2
          rw [ha2.2]; exact hx
        | cons y ys =>
          simp only [List.cons_append, List.cons.injEq] at ha2
          rw [ha2.2]; simp [hx]
      · cases a' with
        | nil =>
          simp only [List.nil_append, List.cons.injEq] at ha2
          rw [← ha2.2]; exact hx
        | cons y ys =>
          simp only [List.cons_append, List.cons.injEq] at ha2
          exact absurd (hl2 y (by rw [ha1]; simp)) (ha2.1 ▸ hnr)
    rw [hl3] at hx'
    rcases List.mem_append.mp hx' with hx' | hx'
    · have := hl4 x hx'
      rw [hx64] at this
      simp at this
    · exact ⟨x, hx', hx64⟩
  obtain ⟨t, ht'⟩ := Option.isSome_iff_exists.mp hobj
  simp only [ht']
  exact bind_safe (getTargetAddrs_safe _ _) (fun _ _ => bind_safe (getTargetRefAddrs_safe _ _) (fun _ _ => by simp))

/-- What a line does when it follows a well-formed description. -/
theorem describe_after {d : Desc} {e : Env} {c t : SoInfo} {deps : List Bytes} (h : d.Good e c t deps) (id : Bytes)
    {bad : Str} (h10 : 10 ∉ bad) (rest : Bytes) {r : Res Acc} (hr : r = .null ∨ r = .ub ∨ r = .err)
    (hb : ∀ acc, acc.obj = some t → entry e c acc (bad ++ [10]) = r) :
    describe e id (d.render ++ (bad ++ 10 :: rest)) = (match r with | .null => .null | .ub => .ub | _ => .err) := by
  obtain ⟨acc, h1, -, h3⟩ := parse_good h
  unfold describe
  rw [h3, lines_line h10, entries, hb acc h1]
  rcases hr with rfl | rfl | rfl <;> rfl

theorem entry_func {e : Env} {c t : SoInfo} {acc : Acc} {l : Str} (ho : acc.obj = some t)
    (hh : l.head? ≠ some 10 ∧ l.head? ≠ some 33 ∧ l.head? ≠ some 64 ∧ l.head? ≠ some 35) :
    entry e c acc l = (funcLine t c (chomp l) >>= fun u => pure { acc with units := acc.units ++ [u] }) := by
  unfold entry
  rw [if_neg (fun h => h.elim hh.1 hh.2.1), if_neg hh.2.2.1, ho]
  simp only
  rw [if_neg hh.2.2.2]

theorem entry_ref {e : Env} {c t : SoInfo} {acc : Acc} {l : Str} (ho : acc.obj = some t) (hh : l.head? = some 35) :
    entry e c acc l = (refLine t c ((chomp l).drop 1) >>= fun r => pure { acc with refs := r :: acc.refs }) := by
  unfold entry
  rw [if_neg (by rw [hh]; simp), if_neg (by rw [hh]; simp), ho]
  simp only
  rw [if_pos hh]

/-- A description with two targets is refused. -/
theorem C81_second_target_refused {d : Desc} {e : Env} {c t : SoInfo} {deps : List Bytes} (h : d.Good e c t deps) (id : Bytes)
    {s : Str} (hs : 10 ∉ s) (rest : Bytes) : describe e id (d.render ++ (64 :: s ++ 10 :: rest)) = .err := by
  have h10 : 10 ∉ (64 :: s) := by
    intro hm
    rcases List.mem_cons.mp hm with hm | hm
    · exact absurd hm (by decide)
    · exact hs hm
  refine describe_after h id h10 rest (r := .err) (by simp) fun acc ho => ?_
  unfold entry
  rw [if_neg (by simp), if_pos (by rfl), if_pos (by rw [ho]; rfl)]

/-- A function line starting with a colon makes the packer free a pointer that was not allocated. -/
theorem C82_leading_colon {d : Desc} {e : Env} {c t : SoInfo} {deps : List Bytes} (h : d.Good e c t deps) (id : Bytes)
    {s : Str} (hs : ∀ x ∈ s, PathChar x) (hne : s ≠ []) (hl : s.getLast? ≠ some 58) (rest : Bytes) :
    describe e id (d.render ++ (58 :: s ++ 10 :: rest)) = .ub := by
  have h10 : 10 ∉ (58 :: s) := by
    intro hm
    rcases List.mem_cons.mp hm with hm | hm
    · exact absurd hm (by decide)
    · exact (hs _ hm).2 rfl
  have h0 : 0 ∉ (58 :: s) := by
    intro hm
    rcases List.mem_cons.mp hm with hm | hm
    · exact absurd hm (by decide)
    · exact (hs _ hm).1 rfl
  refine describe_after h id h10 rest (r := .ub) (by simp) fun acc ho => ?_
  rw [entry_func ho (by simp), chomp_line h0]
  unfold funcLine
  have hl' : (58 :: s).getLast? ≠ some 58 := by
    cases s with
    | nil => exact absurd rfl hne
    | cons a s => rw [List.getLast?_cons_cons]; exact hl
  rw [if_neg (by simp), if_neg hl', if_pos (by rfl)]
  rfl

/-- A line starting with a NUL character makes it read before the line. -/
theorem C82_nul_line {d : Desc} {e : Env} {c t : SoInfo} {deps : List Bytes} (h : d.Good e c t deps) (id : Bytes)
    {s : Str} (hs : 10 ∉ s) (rest : Bytes) : describe e id (d.render ++ (0 :: s ++ 10 :: rest)) = .ub := by
  have h10 : 10 ∉ (0 :: s) := by
    intro hm
    rcases List.mem_cons.mp hm with hm | hm
    · exact absurd hm (by decide)
    · exact hs hm
  refine describe_after h id h10 rest (r := .ub) (by simp) fun acc ho => ?_
  rw [entry_func ho (by simp)]
  have : chomp (0 :: s ++ [10]) = [] := by
    unfold chomp cstr
    have h1 : (0 :: s ++ [10]).getLast? = some 10 := List.getLast?_concat
    rw [if_pos h1, List.dropLast_concat]
    rfl
  rw [this]
  rfl

/-- A reference without colon makes it write through the NULL pointer, -/
theorem C82_reference_without_colon {d : Desc} {e : Env} {c t : SoInfo} {deps : List Bytes} (h : d.Good e c t deps) (id : Bytes)
    {s : Str} (hs : ∀ x ∈ s, PathChar x) (h58 : 58 ∉ s) (rest : Bytes) :
    describe e id (d.render ++ (35 :: s ++ 10 :: rest)) = .null := by
  have h10 : 10 ∉ (35 :: s) := by
    intro hm
    rcases List.mem_cons.mp hm with hm | hm
    · exact absurd hm (by decide)
    · exact (hs _ hm).2 rfl
  have h0 : 0 ∉ (35 :: s) := by
    intro hm
    rcases List.mem_cons.mp hm with hm | hm
    · exact absurd hm (by decide)
    · exact (hs _ hm).1 rfl
  refine describe_after h id h10 rest (r := .null) (by simp) fun acc ho => ?_
  rw [entry_ref ho (by simp), chomp_line h0, List.drop_one, List.tail_cons]
  obtain ⟨tls, x, h1, h2⟩ := tlsMark_eq s
  have hx : 58 ∉ x := by
    intro hm
    have : 58 ∈ 35 :: s := by rw [h2]; simp [hm]
    rcases List.mem_cons.mp this with hm | hm
    · exact absurd hm (by decide)
    · exact h58 hm
  unfold refLine
  rw [h1]
  simp only [strchr_none hx]
  rfl

/-- and so does one with only one of the two offsets. -/
theorem C82_reference_with_one_offset {d : Desc} {e : Env} {c t : SoInfo} {deps : List Bytes} (h : d.Good e c t deps) (id : Bytes)
    {tls : Bool} {a b o : Str} (ha : Name a) (hb : Name b) (ho : ∀ x ∈ o, PathChar x) (h58 : 58 ∉ o) (h37 : tls = false → a.head? ≠ some 37)
    (rest : Bytes) : describe e id (d.render ++ ((mark tls ++ (a ++ 58 :: (b ++ 58 :: o))) ++ 10 :: rest)) = .null := by
  have h10 : 10 ∉ mark tls ++ (a ++ 58 :: (b ++ 58 :: o)) := by
    have : 10 ∉ o := fun hm => (ho _ hm).2 rfl
    simp [(mark_no tls).2, (name_no ha).2.2, (name_no hb).2.2, this]
  have h0 : 0 ∉ mark tls ++ (a ++ 58 :: (b ++ 58 :: o)) := by
    have : 0 ∉ o := fun hm => (ho _ hm).1 rfl
    simp [(mark_no tls).1, (name_no ha).2.1, (name_no hb).2.1, this]
  refine describe_after h id h10 rest (r := .null) (by simp) fun acc hobj => ?_
  have hd : (mark tls ++ (a ++ 58 :: (b ++ 58 :: o))).drop 1 = (mark tls).drop 1 ++ (a ++ 58 :: (b ++ 58 :: o)) := by cases tls <;> rfl
  rw [entry_ref hobj (ref_head _ _), chomp_line h0, hd]
  unfold refLine
  rw [mark_strip tls a _ h37 ha.1]
  simp only [strchr_some (name_no ha).1, strchr_some (name_no hb).1, strchr_none h58]
  rfl

theorem preamble_read {d : Desc} {e : Env} {c t : SoInfo} {deps : List Bytes} (h : d.Good e c t deps) (rest : Bytes)
    (h42 : rest.head? ≠ some 42) :
    parseDescription e (d.preamble ++ rest) = (entries e c (lines rest) ⟨none, [], []⟩ >>= fun acc => .ok (deps.reverse, acc)) := by
  have hl : lines (d.preamble ++ rest) = d.head.map (fun x => remark x ++ [10]) ++ ((d.container ++ [10]) ::
      (d.deps.map (fun p => 42 :: p ++ [10]) ++ lines rest)) := by
    rw [Desc.preamble, lines_texts]
    · simp [List.map_append, Function.comp_def]
    · intro x hx
      apply texts_no10 h
      simp only [Desc.texts, List.mem_append, List.mem_cons] at hx ⊢
      rcases hx with hx | hx | hx
      · exact Or.inl hx
      · exact Or.inr (Or.inl hx)
      · exact Or.inr (Or.inr (Or.inl hx))
  unfold parseDescription
  rw [hl, readContainer_remarks, readContainer_path e _ c _ h.noLivepatch h.container.1 h.container.2.1 h.container.2.2 h.containerFile,
    bind_ok]
  simp only
  rw [readDeps_paths e d.deps deps _ [] h.depPaths h.depFiles]
  · simp only [bind_ok, List.append_nil]
    rfl
  · intro l hl
    cases rest with
    | nil => simp [lines] at hl
    | cons x r =>
      simp only [List.head?_cons, ne_eq, Option.some.injEq] at h42
      rw [lines] at hl
      split at hl
      · rename_i hx
        simp at hl
        subst hl
        simpa using h42
      · split at hl
        · simp at hl; subst hl; simpa using h42
        · simp at hl; subst hl; simpa using h42

/-- A description without target makes it write through the NULL pointer. -/
theorem C82_no_target {d : Desc} {e : Env} {c t : SoInfo} {deps : List Bytes} (h : d.Good e c t deps) (id : Bytes) :
    describe e id (d.preamble ++ (d.mid.map remark).flatMap (· ++ [10])) = .null := by
  unfold describe
  rw [preamble_read h]
  · have := lines_texts (ts := d.mid.map remark) (fun x hx => texts_no10 h x (by
      simp only [Desc.texts, List.mem_append, List.mem_cons]
      exact Or.inr (Or.inr (Or.inr (Or.inl hx))))) []
    rw [List.append_nil] at this
    rw [this, List.map_map]
    have h2 := entries_remarks e c d.mid (lines []) ⟨none, [], []⟩
    simp only [Function.comp_def]
    rw [h2]
    rfl
  · cases hm : d.mid with
    | nil => simp
    | cons o os => cases o <;> simp [remark]

/-- A target whose path is too long overflows a buffer. -/
theorem C82_long_target {d : Desc} {e : Env} {c t : SoInfo} {deps : List Bytes} (h : d.Good e c t deps) (id : Bytes)
    {path : Str} (hp : ∀ x ∈ path, PathChar x) (hlen : 4096 ≤ path.length) (rest : Bytes) :
    describe e id (d.preamble ++ (64 :: path ++ 10 :: rest)) = .ub := by
  have h10 : 10 ∉ (64 :: path) := by
    intro hm
    rcases List.mem_cons.mp hm with hm | hm
    · exact absurd hm (by decide)
    · exact (hp _ hm).2 rfl
  have h0 : 0 ∉ (64 :: path) := by
    intro hm
    rcases List.mem_cons.mp hm with hm | hm
    · exact absurd hm (by decide)
    · exact (hp _ hm).1 rfl
  unfold describe
  rw [preamble_read h _ (by simp), lines_line h10, entries]
  have : entry e c ⟨none, [], []⟩ (64 :: path ++ [10]) = .ub := by
    unfold entry
    rw [chomp_line h0, List.drop_one, List.tail_cons, if_neg (by simp), if_pos (by rfl), if_neg (by simp), h.noTarget]
    simp only [Option.getD_none]
    rw [if_pos (by unfold pathMax; omega)]
  rw [this]
  rfl

/-! ### C83: dependencies -/

/-- A dependency given as a live patch, which is an ELF file, is refused; only raw metadata (which nothing writes) is
accepted, see C80. -/
theorem C83_dependency_refused {d : Desc} {e : Env} {c t : SoInfo} {deps : List Bytes} (h : d.Good e c t deps) (id : Bytes)
    {path : Str} (hp : ∀ x ∈ path, PathChar x) {f : File} (hf : e.fs path = some f) {elf : Bytes} (helf : f.bytes = 0x7f :: elf) (rest : Bytes) :
    describe e id (d.preamble ++ (42 :: path ++ 10 :: rest)) = .err := by
  have h10 : 10 ∉ (42 :: path) := by
    intro hm
    rcases List.mem_cons.mp hm with hm | hm
    · exact absurd hm (by decide)
    · exact (hp _ hm).2 rfl
  have h0 : 0 ∉ (42 :: path) := by
    intro hm
    rcases List.mem_cons.mp hm with hm | hm
    · exact absurd hm (by decide)
    · exact (hp _ hm).1 rfl
  have hl : lines (d.preamble ++ (42 :: path ++ 10 :: rest)) = d.head.map (fun x => remark x ++ [10]) ++ ((d.container ++ [10]) ::
      (d.deps.map (fun p => 42 :: p ++ [10]) ++ ((42 :: path ++ [10]) :: lines rest))) := by
    rw [Desc.preamble, lines_texts, lines_line h10]
    · simp [List.map_append, Function.comp_def]
    · intro x hx
      apply texts_no10 h
      simp only [Desc.texts, List.mem_append, List.mem_cons] at hx ⊢
      rcases hx with hx | hx | hx
      · exact Or.inl hx
      · exact Or.inr (Or.inl hx)
      · exact Or.inr (Or.inr (Or.inl hx))
  have hdep : ∀ (ps : List Str) (ids acc : List Bytes), (∀ s ∈ ps, ∀ x ∈ s, PathChar x) → All₂ (IsMeta e) ps ids →
      readDeps e (ps.map (fun p => 42 :: p ++ [10]) ++ ((42 :: path ++ [10]) :: lines rest)) acc = .err := by
    intro ps
    induction ps with
    | nil =>
      intro ids acc _ _
      rw [List.map_nil, List.nil_append, readDeps, if_pos (by rfl), chomp_line h0, List.drop_one, List.tail_cons]
      have : addDependency e path = .err := by
        unfold addDependency
        rw [hf]
        simp only [helf]
        rw [if_pos (by decide)]
      rw [this]
      rfl
    | cons p ps ih =>
      intro ids acc hps hall
      cases ids with
      | nil => exact absurd hall.1 (by simp)
      | cons i ids =>
        rw [all2_cons] at hall
        have hc : chomp (42 :: p ++ [10]) = 42 :: p := by
          rw [show (42 :: p ++ [10] : Str) = (42 :: p) ++ [10] from rfl, chomp_line]
          intro h0
          rcases List.mem_cons.mp h0 with h0 | h0
          · exact absurd h0 (by decide)
          · exact (hps p (by simp) 0 h0).1 rfl
        rw [List.map_cons, List.cons_append, readDeps, if_pos (by rfl), hc, List.drop_one, List.tail_cons,
          addDependency_meta hall.1, bind_ok]
        exact ih ids _ (fun s hs => hps s (by simp [hs])) hall.2
  unfold describe parseDescription
  rw [hl, readContainer_remarks, readContainer_path e _ c _ h.noLivepatch h.container.1 h.container.2.1 h.container.2.2 h.containerFile,
    bind_ok]
  simp only
  rw [hdep d.deps deps [] h.depPaths h.depFiles]
  rfl

/-! ### C84: explicit offsets -/

theorem describe_refAt' {d : Desc} {e : Env} {c t : SoInfo} {deps : List Bytes} (h : d.Good e c t deps) (id : Bytes)
    {tls : Bool} {tn rn a b : Str} (ht : Name tn) (hr : Name rn) (h37 : tls = false → tn.head? ≠ some 37) (ha : (0 ∉ a ∧ 10 ∉ a) ∧ 58 ∉ a) (hb : 0 ∉ b ∧ 10 ∉ b) :
    ∃ (acc : Acc) (us : List Unit'), acc.obj = some t ∧ getTargetAddrs t acc.units = .ok us ∧ getTargetRefAddrs t acc.refs = .ok acc.refs ∧
      describe e id (d.render ++ (Entry.text (.refAt tls tn rn a b) ++ [10])) =
        (getTargetRefAddrs t (⟨tn, rn, strtol16 a, strtol16 b, tls⟩ :: acc.refs) >>= fun rs =>
          .ok ⟨id, t.buildId, t.name, us, deps.reverse, rs⟩) := by
  obtain ⟨acc, h1, h2, h3⟩ := parse_good h
  obtain ⟨h4, rs, h5, h6, h7⟩ := adds_refFor h2
  simp only [List.nil_append, List.reverse_nil] at h4 h5
  obtain ⟨us, h8, h9⟩ := getTargetAddrs_has (us := funcs d.entries) (fun u hu => (has_of_func h.entries u hu).1)
  have h10 : getTargetRefAddrs t acc.refs = .ok acc.refs := by
    apply getTargetRefAddrs_resolved
    intro r hr
    exact h7 r (by rw [← h5]; simpa using hr)
  refine ⟨acc, us, h1, by rw [h4]; exact h8, h10, ?_⟩
  have hno10 : 10 ∉ Entry.text (.refAt tls tn rn a b) := by
    simp [Entry.text, (name_no ht).2.2, (name_no hr).2.2, (mark_no tls).2, ha.1.2, hb.2]
  have hno0 : 0 ∉ Entry.text (.refAt tls tn rn a b) := by
    simp [Entry.text, (name_no ht).2.1, (name_no hr).2.1, (mark_no tls).1, ha.1.1, hb.1]
  have hent : entry e c acc (Entry.text (.refAt tls tn rn a b) ++ [10]) =
      .ok { acc with refs := ⟨tn, rn, strtol16 a, strtol16 b, tls⟩ :: acc.refs } := by
    have h58 : 58 ∉ a := ha.2
    have hhead : (Entry.text (.refAt tls tn rn a b) ++ [10]).head? = some 35 := ref_head tls _
    rw [entry_ref h1 hhead, chomp_line hno0]
    have hd : (Entry.text (.refAt tls tn rn a b)).drop 1 = (mark tls).drop 1 ++ (tn ++ 58 :: (rn ++ 58 :: (a ++ 58 :: b))) := by
      cases tls <;> rfl
    rw [hd]
    unfold refLine
    rw [mark_strip tls tn _ h37 ht.1]
    simp only [strchr_some (name_no ht).1, strchr_some (name_no hr).1, strchr_some h58]
    rfl
  unfold describe
  rw [h3, lines_line hno10, entries, hent]
  simp only [bind_ok, lines, entries, h1, h4, h8, pure_eq]

theorem hex_plain {a : Str} (ha : Hex a) : (0 ∉ a ∧ 10 ∉ a) ∧ 58 ∉ a :=
  ⟨hex_no ha, fun h => (hex_not_space (ha.2 _ h)).2.2.2.2.2.1 rfl⟩

theorem describe_refAt {d : Desc} {e : Env} {c t : SoInfo} {deps : List Bytes} (h : d.Good e c t deps) (id : Bytes)
    {tls : Bool} {tn rn a b : Str} (ht : Name tn) (hr : Name rn) (h37 : tls = false → tn.head? ≠ some 37) (ha : Hex a) (hb : Hex b) :
    ∃ (acc : Acc) (us : List Unit'), acc.obj = some t ∧ getTargetAddrs t acc.units = .ok us ∧ getTargetRefAddrs t acc.refs = .ok acc.refs ∧
      describe e id (d.render ++ (Entry.text (.refAt tls tn rn a b) ++ [10])) =
        (getTargetRefAddrs t (⟨tn, rn, strtol16 a, strtol16 b, tls⟩ :: acc.refs) >>= fun rs =>
          .ok ⟨id, t.buildId, t.name, us, deps.reverse, rs⟩) :=
  describe_refAt' h id ht hr h37 (hex_plain ha) (hex_no hb)

/-- An explicit offset of zero is not used: the offset of the symbol of that name is recorded instead, -/
theorem C84_zero_offset_ignored {d : Desc} {e : Env} {c t : SoInfo} {deps : List Bytes} (h : d.Good e c t deps) (id : Bytes)
    {tls : Bool} {tn rn a b : Str} (ht : Name tn) (hr : Name rn) (h37 : tls = false → tn.head? ≠ some 37) (ha : Hex a) (hb : Hex b)
    (h0 : hexValue a = 0) (hhas : Has t tn) (hnz : ∀ s ∈ t.symbols, s.name = tn → s.offset ≠ 0) :
    ∃ p, describe e id (d.render ++ (Entry.text (.refAt tls tn rn a b) ++ [10])) = .ok p ∧
      ∃ r rs, p.refs = r :: rs ∧ r.targetName = tn ∧ r.referenceName = rn ∧ r.targetOffset ≠ 0 := by
  obtain ⟨acc, us, h1, h2, h3, h4⟩ := describe_refAt h id ht hr h37 ha hb
  obtain ⟨s, hs, x, hx, hxn, hxo⟩ := getSymbol_has hhas
  rw [getTargetRefAddrs, if_neg (by simp [strtol16_hex ha (by omega), h0])] at h4
  simp only [hs, h3, bind_ok, pure_eq] at h4
  refine ⟨_, h4, _, _, rfl, rfl, rfl, ?_⟩
  simp only
  intro hz
  apply hnz x hx hxn
  apply BitVec.eq_of_toNat_eq
  rw [hxo, hz]
  rfl

/-- and without such a symbol (the variable is a local one) the description is refused. -/
theorem C84_zero_offset_refused {d : Desc} {e : Env} {c t : SoInfo} {deps : List Bytes} (h : d.Good e c t deps) (id : Bytes)
    {tls : Bool} {tn rn a b : Str} (ht : Name tn) (hr : Name rn) (h37 : tls = false → tn.head? ≠ some 37) (ha : Hex a) (hb : Hex b)
    (h0 : hexValue a = 0) (hhas : ¬ Has t tn) :
    describe e id (d.render ++ (Entry.text (.refAt tls tn rn a b) ++ [10])) = .err := by
  obtain ⟨acc, us, h1, h2, h3, h4⟩ := describe_refAt h id ht hr h37 ha hb
  rw [h4, getTargetRefAddrs, if_neg (by simp [strtol16_hex ha (by omega), h0])]
  cases hs : getSymbol t tn with
  | none => simp only [hs, bind_err]
  | some s =>
    obtain ⟨x, hx, hn, -⟩ := getSymbol_at hs
    exact absurd ⟨x, hx, hn⟩ hhas

/-- Other offsets below 2^63 are used as given; the symbols need not exist. -/
theorem C84_offsets_used_partial {d : Desc} {e : Env} {c t : SoInfo} {deps : List Bytes} (h : d.Good e c t deps) (id : Bytes)
    {tls : Bool} {tn rn a b : Str} (ht : Name tn) (hr : Name rn) (h37 : tls = false → tn.head? ≠ some 37) (ha : Hex a) (hb : Hex b)
    (h0 : 0 < hexValue a) (hav : hexValue a < 2 ^ 63) (hbv : hexValue b < 2 ^ 63) :
    ∃ p, describe e id (d.render ++ (Entry.text (.refAt tls tn rn a b) ++ [10])) = .ok p ∧
      ∃ rs, p.refs = ⟨tn, rn, hexValue a, hexValue b, tls⟩ :: rs := by
  obtain ⟨acc, us, h1, h2, h3, h4⟩ := describe_refAt h id ht hr h37 ha hb
  rw [strtol16_hex ha hav, strtol16_hex hb hbv] at h4
  rw [getTargetRefAddrs, if_pos (by simp; omega)] at h4
  simp only [h3, bind_ok, pure_eq] at h4
  exact ⟨_, h4, _, rfl⟩

theorem skip0x_hex {s : Str} (h : Hex s) : skip0x s = s := by
  unfold skip0x
  split
  · rename_i x d t
    have hx := hex_not_space (h.2 x (by simp))
    rw [if_neg (fun hh => hh.1.elim hx.2.2.2.1 hx.2.2.2.2.1)]
  · rfl

/-- Offsets of 2^63 and more are silently replaced by 2^63 - 1. -/
theorem C84_huge_offset {d : Desc} {e : Env} {c t : SoInfo} {deps : List Bytes} (h : d.Good e c t deps) (id : Bytes)
    {tls : Bool} {tn rn a b : Str} (ht : Name tn) (hr : Name rn) (h37 : tls = false → tn.head? ≠ some 37) (ha : Hex a) (hb : Hex b)
    (hav : 2 ^ 63 ≤ hexValue a) :
    ∃ p, describe e id (d.render ++ (Entry.text (.refAt tls tn rn a b) ++ [10])) = .ok p ∧
      ∃ r rs, p.refs = r :: rs ∧ r.targetName = tn ∧ r.referenceName = rn ∧ r.targetOffset = 2 ^ 63 - 1 := by
  obtain ⟨acc, us, h1, h2, h3, h4⟩ := describe_refAt h id ht hr h37 ha hb
  have hs : strtol16 a = 2 ^ 63 - 1 := by
    have hne := ha.1; have h' := ha.2
    cases a with
    | nil => exact absurd rfl hne
    | cons c s =>
      have hc := hex_not_space (h' c (by simp))
      have h1 : sign (c :: s) = (false, c :: s) := by
        unfold sign
        split
        · rename_i heq; injection heq with h1 h2; exact absurd h1 hc.2.1
        · rename_i heq; injection heq with h1 h2; exact absurd h1 hc.2.2.1
        · rfl
      unfold strtol16
      rw [List.dropWhile_cons, hc.1]
      simp only [Bool.false_eq_true, if_false, h1, skip0x_hex ha, hexDigits_eq h']
      exact Nat.min_eq_right (by omega)
  rw [hs] at h4
  rw [getTargetRefAddrs, if_pos (by simp)] at h4
  simp only [h3, bind_ok, pure_eq] at h4
  exact ⟨_, h4, _, _, rfl, rfl, rfl, rfl⟩

/-- An offset with a minus sign is taken modulo 2^64. -/
theorem C84_negative_offset {d : Desc} {e : Env} {c t : SoInfo} {deps : List Bytes} (h : d.Good e c t deps) (id : Bytes)
    {tls : Bool} {tn rn a b : Str} (ht : Name tn) (hr : Name rn) (h37 : tls = false → tn.head? ≠ some 37) (ha : Hex a) (hb : Hex b)
    (h0 : 0 < hexValue a) (hav : hexValue a < 2 ^ 63) :
    ∃ p, describe e id (d.render ++ (Entry.text (.refAt tls tn rn (45 :: a) b) ++ [10])) = .ok p ∧
      ∃ r rs, p.refs = r :: rs ∧ r.targetName = tn ∧ r.referenceName = rn ∧ r.targetOffset = 2 ^ 64 - hexValue a := by
  obtain ⟨acc, us, h1, h2, h3, h4⟩ := describe_refAt' (a := 45 :: a) h id ht hr h37
    (by have := hex_plain ha; simp [this.1.1, this.1.2, this.2]) (hex_no hb)
  have hs : strtol16 (45 :: a) = 2 ^ 64 - hexValue a := by
    unfold strtol16
    rw [List.dropWhile_cons, show Text.isSpace 45 = false by decide]
    simp only [Bool.false_eq_true, if_false, sign, if_true, skip0x_hex ha, hexDigits_eq ha.2]
    rw [Nat.min_eq_left (by omega)]
    omega
  rw [hs] at h4
  rw [getTargetRefAddrs, if_pos (by simp; omega)] at h4
  simp only [h3, bind_ok, pure_eq] at h4
  exact ⟨_, h4, _, _, rfl, rfl, rfl, rfl⟩

/-! ### A description -/

/-- A library with two functions and a variable, -/
def demoLib : SoInfo := ⟨"libfoo.so".toUTF8.toList, List.replicate 20 7, [⟨"f".toUTF8.toList, 0x1100, 10, 0, 0⟩, ⟨"g".toUTF8.toList, 0x1200, 20, 0, 0⟩,
  ⟨"v".toUTF8.toList, 0x4000, 8, 0, 0⟩]⟩

/-- a live patch for it, -/
def demoLp : SoInfo := ⟨"lp.so".toUTF8.toList, List.replicate 20 8, [⟨"f_new".toUTF8.toList, 0x1300, 10, 0, 0⟩, ⟨"v_ref".toUTF8.toList, 0x5000, 8, 0, 0⟩]⟩

/-- and another, as metadata. -/
def demoEnv : Env := ⟨fun n => if n = "/lp".toUTF8.toList then some ⟨false, [0x7f, 0x45], some demoLp⟩
  else if n = "/lib".toUTF8.toList then some ⟨false, [0x7f, 0x45], some demoLib⟩
  else if n = "/dep".toUTF8.toList then some ⟨false, 1 :: (List.replicate 32 9 ++ [1, 2]), none⟩ else none, none, none⟩

def demoDesc : Desc := ⟨[some "a patch".toUTF8.toList, none], "/lp".toUTF8.toList, ["/dep".toUTF8.toList], [none], "/lib".toUTF8.toList,
  [.func "f".toUTF8.toList "f_new".toUTF8.toList, .comment "refs".toUTF8.toList, .ref false "v".toUTF8.toList "v_ref".toUTF8.toList,
   .refAt true "l".toUTF8.toList "l_ref".toUTF8.toList "4ab0".toUTF8.toList "5ff8".toUTF8.toList, .blank]⟩

theorem name_demo {s : Str} (h : (s != [] && s.all fun c => c != 0 && c != 10 && c != 58) = true) : Name s := by
  simp only [Bool.and_eq_true, bne_iff_ne, ne_eq, List.all_eq_true] at h
  exact ⟨h.1, fun c hc => ⟨⟨(h.2 c hc).1.1, (h.2 c hc).1.2⟩, (h.2 c hc).2⟩⟩

theorem hex_demo {s : Str} (h : (s != [] && s.all fun c => (Text.hexVal c).isSome) = true) : Hex s := by
  simp only [Bool.and_eq_true, bne_iff_ne, ne_eq, List.all_eq_true] at h
  exact h

theorem path_demo {s : Str} (h : (s.all fun c => c != 0 && c != 10) = true) : ∀ x ∈ s, PathChar x := by
  simp only [List.all_eq_true, Bool.and_eq_true, bne_iff_ne, ne_eq] at h
  exact h

theorem demoDesc_good : demoDesc.Good demoEnv demoLp demoLib [List.replicate 32 9] where
  noLivepatch := rfl
  noTarget := rfl
  head := by decide +kernel
  mid := by decide +kernel
  container := ⟨by decide +kernel, path_demo (by decide +kernel), by decide +kernel⟩
  containerFile := ⟨⟨false, [0x7f, 0x45], some demoLp⟩, by decide +kernel, rfl, rfl⟩
  target := ⟨path_demo (by decide +kernel), by decide +kernel⟩
  targetFile := ⟨⟨false, [0x7f, 0x45], some demoLib⟩, by decide +kernel, rfl, rfl⟩
  depPaths := by
    intro s hs
    simp only [demoDesc, List.mem_singleton] at hs
    subst hs
    exact path_demo (by decide +kernel)
  depFiles := all2_cons.mpr ⟨⟨by decide, ⟨false, 1 :: (List.replicate 32 9 ++ [1, 2]), none⟩, [1, 2], by decide +kernel, rfl⟩, all2_nil _⟩
  entries := by
    intro x hx
    simp only [demoDesc, List.mem_cons, List.not_mem_nil, or_false] at hx
    rcases hx with rfl | rfl | rfl | rfl | rfl
    · exact ⟨name_demo (by decide +kernel), name_demo (by decide +kernel), by decide +kernel, by unfold Has; decide +kernel, by unfold Has; decide +kernel⟩
    · show 10 ∉ _; decide +kernel
    · exact ⟨name_demo (by decide +kernel), name_demo (by decide +kernel), by decide +kernel, by unfold Has; decide +kernel, by unfold Has; decide +kernel⟩
    · exact ⟨name_demo (by decide +kernel), name_demo (by decide +kernel), by decide +kernel, hex_demo (by decide +kernel), hex_demo (by decide +kernel),
        by decide +kernel, by decide +kernel, by decide +kernel⟩
    · trivial

theorem demoDesc_fits : Fits demoDesc demoLib (List.replicate 32 5) :=
  ⟨by decide +kernel, by decide +kernel, ⟨by decide +kernel, by decide +kernel⟩, by decide +kernel, by decide +kernel, by decide +kernel⟩

example : demoDesc.render = ("!a patch\n\n/lp\n*/dep\n\n@/lib\nf:f_new\n!refs\n#v:v_ref\n#%l:l_ref:4ab0:5ff8\n\n").toUTF8.toList := by decide +kernel

example : describe demoEnv (List.replicate 32 5) demoDesc.render = .ok ⟨List.replicate 32 5, List.replicate 20 7, "libfoo.so".toUTF8.toList,
    [⟨"f".toUTF8.toList, "f_new".toUTF8.toList, 0x1100⟩], [List.replicate 32 9],
    [⟨"l".toUTF8.toList, "l_ref".toUTF8.toList, 0x4ab0, 0x5ff8, true⟩, ⟨"v".toUTF8.toList, "v_ref".toUTF8.toList, 0x4000, 0x5000, false⟩]⟩ := by
  decide +kernel

example : ∃ p, describe demoEnv (List.replicate 32 5) demoDesc.render = .ok p ∧ Describes p demoDesc demoLp demoLib (List.replicate 32 5) [List.replicate 32 9] :=
  C80_describes demoDesc_good _

example := C80_reaches_process demoDesc_good demoDesc_fits (path := [47, 108, 112]) (by decide) (by decide)

example : ∃ p, describe demoEnv [] demoDesc.render = .ok p ∧ ∃ c t, Container demoEnv (lines demoDesc.render) c ∧ Target demoEnv (lines demoDesc.render) t ∧
    p.name = t.name := by
  obtain ⟨p, h, -⟩ := C80_describes demoDesc_good []
  obtain ⟨c, t, h1, h2, -, h3, -⟩ := C81_accepted_partial h
  exact ⟨p, h, c, t, h1, h2, h3⟩

example : describe demoEnv [] (demoDesc.render ++ (64 :: "/lib".toUTF8.toList ++ 10 :: [])) = .err :=
  C81_second_target_refused demoDesc_good _ (by decide +kernel) _

/-- A description that is refused, but safely. -/
example : describe demoEnv [] "/lp\n@/lib\nnothere:f_new\n".toUTF8.toList ≠ .null ∧ describe demoEnv [] "/lp\n@/lib\nnothere:f_new\n".toUTF8.toList ≠ .ub := by
  refine C82_safe_partial [] ?_ (by simp [demoEnv]) ⟨[], "/lp\n".toUTF8.toList, ["@/lib\n".toUTF8.toList, "nothere:f_new\n".toUTF8.toList], by decide +kernel,
    by unfold IsRemark; decide +kernel, by decide +kernel⟩
  have h : lines "/lp\n@/lib\nnothere:f_new\n".toUTF8.toList = ["/lp\n".toUTF8.toList, "@/lib\n".toUTF8.toList, "nothere:f_new\n".toUTF8.toList] := by decide +kernel
  rw [h]
  intro l hl
  simp only [List.mem_cons, List.not_mem_nil, or_false] at hl
  rcases hl with rfl | rfl | rfl <;> exact ⟨by decide +kernel, by decide +kernel, by decide +kernel, by decide +kernel⟩

example : describe demoEnv [] (demoDesc.render ++ (58 :: "f:f_new".toUTF8.toList ++ 10 :: [])) = .ub :=
  C82_leading_colon demoDesc_good _ (path_demo (by decide +kernel)) (by decide +kernel) (by decide +kernel) _

example : describe demoEnv [] (demoDesc.render ++ (0 :: [65] ++ 10 :: [])) = .ub := C82_nul_line demoDesc_good _ (by decide) _

example : describe demoEnv [] (demoDesc.render ++ (35 :: "var".toUTF8.toList ++ 10 :: [])) = .null :=
  C82_reference_without_colon demoDesc_good _ (path_demo (by decide +kernel)) (by decide +kernel) _

example : describe demoEnv [] (demoDesc.render ++ ((mark false ++ ("v".toUTF8.toList ++ 58 :: ("r".toUTF8.toList ++ 58 :: "10".toUTF8.toList))) ++ 10 :: [])) = .null :=
  C82_reference_with_one_offset demoDesc_good _ (name_demo (by decide +kernel)) (name_demo (by decide +kernel)) (path_demo (by decide +kernel)) (by decide +kernel)
    (by decide +kernel) _

example := C82_no_target demoDesc_good []

example : describe demoEnv [] (demoDesc.preamble ++ (64 :: List.replicate 5000 47 ++ 10 :: [])) = .ub :=
  C82_long_target demoDesc_good _ (by intro x hx; rw [List.mem_replicate] at hx; rw [hx.2]; exact ⟨by decide, by decide⟩) (by rw [List.length_replicate]; decide) _

/-- Depending on the live patch `/lp`. -/
example : describe demoEnv [] (demoDesc.preamble ++ (42 :: "/lp".toUTF8.toList ++ 10 :: [])) = .err :=
  C83_dependency_refused demoDesc_good _ (path_demo (by decide +kernel)) (f := ⟨false, [0x7f, 0x45], some demoLp⟩) (by decide +kernel) (elf := [0x45]) rfl _

example := C84_zero_offset_ignored demoDesc_good [] (tls := false) (tn := "v".toUTF8.toList) (rn := "r".toUTF8.toList) (a := "0".toUTF8.toList) (b := "10".toUTF8.toList)
  (name_demo (by decide +kernel)) (name_demo (by decide +kernel)) (by decide +kernel) (hex_demo (by decide +kernel)) (hex_demo (by decide +kernel)) (by decide +kernel)
  (by unfold Has; decide +kernel) (by decide +kernel)

example := C84_zero_offset_refused demoDesc_good [] (tls := true) (tn := "tlsvar".toUTF8.toList) (rn := "r".toUTF8.toList) (a := "0".toUTF8.toList) (b := "10".toUTF8.toList)
  (name_demo (by decide +kernel)) (name_demo (by decide +kernel)) (by decide +kernel) (hex_demo (by decide +kernel)) (hex_demo (by decide +kernel)) (by decide +kernel)
  (by unfold Has; decide +kernel)

example := C84_offsets_used_partial demoDesc_good [] (tls := true) (tn := "tlsvar".toUTF8.toList) (rn := "r".toUTF8.toList) (a := "1c".toUTF8.toList) (b := "10".toUTF8.toList)
  (name_demo (by decide +kernel)) (name_demo (by decide +kernel)) (by decide +kernel) (hex_demo (by decide +kernel)) (hex_demo (by decide +kernel)) (by decide +kernel)
  (by decide +kernel) (by decide +kernel)

example := C84_huge_offset demoDesc_good [] (tls := true) (tn := "tlsvar".toUTF8.toList) (rn := "r".toUTF8.toList) (a := "ffffffffffffff00".toUTF8.toList) (b := "10".toUTF8.toList)
  (name_demo (by decide +kernel)) (name_demo (by decide +kernel)) (by decide +kernel) (hex_demo (by decide +kernel)) (hex_demo (by decide +kernel))
  (by decide +kernel)

example := C84_negative_offset demoDesc_good [] (tls := true) (tn := "tlsvar".toUTF8.toList) (rn := "r".toUTF8.toList) (a := "1c".toUTF8.toList) (b := "10".toUTF8.toList)
  (name_demo (by decide +kernel)) (name_demo (by decide +kernel)) (by decide +kernel) (hex_demo (by decide +kernel)) (hex_demo (by decide +kernel))
  (by decide +kernel) (by decide +kernel)

/-- The library imports `puts`. -/
def demoImport : SoInfo := { demoLib with symbols := Extract.buildSymbolsList ⟨some [⟨"puts".toUTF8.toList, 0, 0, 18, 0, 0⟩], none, none⟩ }

example : ∃ p, describe { demoEnv with fs := fun n => if n = "/lib".toUTF8.toList then some ⟨false, [], some demoImport⟩ else demoEnv.fs n } []
    "/lp\n@/lib\nputs:f_new\n".toUTF8.toList = .ok p ∧ ∃ u ∈ p.units, u.oldFname = "puts".toUTF8.toList ∧ u.newFname = "f_new".toUTF8.toList ∧ u.oldFaddr = 0 := by
  have h := C81_imported_function_accepted (d := ⟨[], "/lp".toUTF8.toList, [], [], "/lib".toUTF8.toList, [.func "puts".toUTF8.toList "f_new".toUTF8.toList]⟩)
    (e := { demoEnv with fs := fun n => if n = "/lib".toUTF8.toList then some ⟨false, [], some demoImport⟩ else demoEnv.fs n })
    (c := demoLp) (t := demoImport) (deps := []) ⟨rfl, rfl, by simp, by simp, ⟨by decide +kernel, path_demo (by decide +kernel), by decide +kernel⟩,
      ⟨⟨false, [0x7f, 0x45], some demoLp⟩, by decide +kernel, rfl, rfl⟩, ⟨path_demo (by decide +kernel), by decide +kernel⟩, ⟨⟨false, [], some demoImport⟩, by decide +kernel, rfl, rfl⟩, by simp,
      all2_nil _, by
        intro x hx
        rw [List.mem_singleton] at hx
        subst hx
        exact ⟨name_demo (by decide +kernel), name_demo (by decide +kernel), by decide +kernel, by unfold Has; decide +kernel, by unfold Has; decide +kernel⟩⟩ []
    (elf := ⟨some [⟨"puts".toUTF8.toList, 0, 0, 18, 0, 0⟩], none, none⟩) rfl rfl rfl (old := "puts".toUTF8.toList) (new := "f_new".toUTF8.toList)
    (by decide +kernel) (by decide +kernel)
  have hr : Desc.render ⟨[], "/lp".toUTF8.toList, [], [], "/lib".toUTF8.toList, [.func "puts".toUTF8.toList "f_new".toUTF8.toList]⟩ = "/lp\n@/lib\nputs:f_new\n".toUTF8.toList := by
    decide +kernel
  rwa [hr] at h

end Verif.Dsc
