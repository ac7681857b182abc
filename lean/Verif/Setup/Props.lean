import Verif.Setup.Lemmas
import Verif.Cli.Props

/-! C186, C187 (descriptions made by several jobs), C188 (choice of packages), C189 (file names), C190 (age), C191 (libraries
that are passed over): scripts/setup_package.sh. -/

namespace Verif.Setup

open Spec
open Cli (b)

/-! ### C186 -/

/-- **C186.** Never are there more jobs than tokens were put into the pipe, whatever the jobs' results and in whatever order
they end. -/
theorem C186_bounded (cmd : Nat → Nat) (n m : Nat) (dirs : List (List Nat)) (c : Conf)
    (h : Steps cmd m (start n dirs) c) : c.running.length ≤ n := by
  obtain ⟨k, -, h4⟩ := (inv_steps (inv_start n dirs) h).pipe
  omega

/-- **C186.** With one token at least there is always something that can go on, until all is done, and there is an end to
it: two steps for a library, one for a directory. -/
theorem C186_comes_to_end (cmd : Nat → Nat) (n m : Nat) (hn : 1 ≤ n) (dirs : List (List Nat)) (c : Conf)
    (h : Steps cmd m (start n dirs) c) :
    (Finished c ∨ ∃ d, Step cmd c d) ∧ m ≤ 2 * dirs.flatten.length + dirs.length := by
  have hi := inv_steps (inv_start n dirs) h
  refine ⟨?_, ?_⟩
  · by_cases hf : Finished c
    · exact .inl hf
    · exact .inr (progress cmd hn hi hf)
  · have := left_steps (inv_start n dirs) h
    simp [left, start] at this
    simp
    omega

/-- **C186.** At the end there was exactly one job for each library. -/
theorem C186_each_once (cmd : Nat → Nat) (n m : Nat) (dirs : List (List Nat)) (c : Conf)
    (h : Steps cmd m (start n dirs) c) (hf : Finished c) : c.ended.Perm dirs.flatten := by
  have := (inv_steps (inv_start n dirs) h).all
  obtain ⟨h1, h2, h3⟩ := hf
  simpa [h1, h2, h3] using this

/-- Two jobs at once for three libraries; the second ends first, and the third is begun. -/
theorem demo_jobs (cmd : Nat → Nat) : ∃ c, Steps cmd 4 (start 2 [[7, 8, 9]]) c ∧ c.running = [7] ∧ c.ended = [8] ∧ c.todo = [9] := by
  refine ⟨_, .tail (.tail (.tail (.tail (.refl _) (.next rfl rfl rfl rfl)) (.take rfl rfl rfl (by decide)))
    (.take rfl rfl rfl (by decide))) (.finish (r₁ := [7]) (l := 8) (r₂ := []) rfl), rfl, rfl, rfl⟩

example : ∃ c, Steps (fun _ => 1) 4 (start 2 [[7, 8, 9]]) c ∧ c.running.length ≤ 2 ∧ ¬ Finished c := by
  obtain ⟨c, h, hr, -, -⟩ := demo_jobs (fun _ => 1)
  exact ⟨c, h, C186_bounded _ 2 4 _ c h, by simp [Finished, hr]⟩

/-- Without a token nothing would ever begin. -/
example (cmd : Nat → Nat) (c : Conf) : ¬ Step cmd { start 0 [] with todo := [1] } c := by
  intro h
  generalize he : ({ start 0 [] with todo := [1] } : Conf) = s at h
  cases h with
  | take hn ht hp hz => subst he; simp [start] at hp
  | stop hn ht hp hz => subst he; simp [start] at hp
  | finish hr => subst he; simp [start] at hr
  | next hn ht hr hd => subst he; simp at ht

/-! ### C187 -/

/-- **C187**, as far as it holds: a failure does not keep the script from any other library. -/
theorem C187_others_done_partial (cmd : Nat → Nat) (n m : Nat) (dirs : List (List Nat)) (c : Conf)
    (h : Steps cmd m (start n dirs) c) (he : exits c ≠ none) : ∀ d ∈ dirs, ∀ l ∈ d, l ∈ c.ended := by
  have hi := inv_steps (inv_start n dirs) h
  have hf : Finished c := by
    unfold exits at he
    rw [hi.stopped] at he
    by_cases hc : c.dirs = [] ∧ c.todo = [] ∧ c.running = []
    · exact hc
    · simp [hc] at he
  intro d hd l hl
  exact (C186_each_once cmd n m dirs c h hf).mem_iff.mpr (List.mem_flatten.mpr ⟨d, hd, hl⟩)

/-- **C187 is false.** However many extractions fail, and however they do, the script never stops before the end, and never
exits with anything but success: the status that a job writes is that of its counting. -/
theorem C187_unnoticed (cmd : Nat → Nat) (n m : Nat) (dirs : List (List Nat)) (c : Conf)
    (h : Steps cmd m (start n dirs) c) : c.stopped = none ∧ ∀ s, exits c = some s → s = 0 := by
  have hi := inv_steps (inv_start n dirs) h
  refine ⟨hi.stopped, fun s hs => ?_⟩
  unfold exits at hs
  rw [hi.stopped] at hs
  by_cases hc : c.dirs = [] ∧ c.todo = [] ∧ c.running = []
  · rw [if_pos hc, hi.vars.1, hi.vars.2] at hs
    simpa using hs.symm
  · simp [hc] at hs

/-- **C187.** So it can always end with success, whatever the results, even if no description could be made. -/
theorem C187_success_after_failures (cmd : Nat → Nat) (n : Nat) (hn : 1 ≤ n) (dirs : List (List Nat)) :
    ∃ m c, Steps cmd m (start n dirs) c ∧ exits c = some 0 ∧ c.ended.Perm dirs.flatten := by
  obtain ⟨m, c, hs, hf⟩ := steps_end (cmd := cmd) hn _ 0 _ _ (inv_start n dirs) (.refl _) rfl
  have hi := inv_steps (inv_start n dirs) hs
  refine ⟨m, c, hs, ?_, C186_each_once cmd n m dirs c hs hf⟩
  unfold exits
  rw [hi.stopped]
  simp only
  rw [if_pos (show c.dirs = [] ∧ c.todo = [] ∧ c.running = [] from hf), hi.vars.1, hi.vars.2]
  rfl

/-- What the script is made for does work with the tokens themselves: one that says failure ends it (as none ever does). -/
example : ∃ c, Step (fun _ => 1) { start 0 [] with todo := [1], pipe := code3 9 } c ∧ exits c = some 9 :=
  ⟨_, .stop rfl rfl rfl (by decide), by decide +kernel⟩

example : ∃ m c, Steps (fun _ => 139) m (start 4 [[1, 2], [3]]) c ∧ exits c = some 0 ∧ ∀ l ∈ [1, 2, 3], l ∈ c.ended := by
  obtain ⟨m, c, h, he, hp⟩ := C187_success_after_failures (fun _ => 139) 4 (by omega) [[1, 2], [3]]
  exact ⟨m, c, h, he, fun l hl => hp.mem_iff.mpr (by simpa using hl)⟩

/-! ### C188 -/

/-- **C188.** The packages that are taken: those whose name ends in the name asked for, and whose architecture begins with
the one asked for. -/
theorem C188_which (name arch : Str) (hn : 32 ∉ name) (packs : List Pack) (hp : ∀ p ∈ packs, Plain p) (x : Str)
    (hf : found (nevras name arch packs) = true) :
    x ∈ nevras name arch packs ↔ ∃ p ∈ packs, name <:+ p.name ∧ arch <+: p.arch ∧ x = p.nevra := by
  have hm : ∀ p, p ∈ packs.filter (fun p => grep name arch p.line) ↔ p ∈ packs ∧ name <:+ p.name ∧ arch <+: p.arch := by
    intro p
    rw [List.mem_filter]
    constructor
    · rintro ⟨h1, h2⟩; exact ⟨h1, (grep_line hn p (hp p h1)).mp h2⟩
    · rintro ⟨h1, h2⟩; exact ⟨h1, (grep_line hn p (hp p h1)).mpr h2⟩
  unfold nevras at hf ⊢
  cases hl : packs.filter (fun p => grep name arch p.line) with
  | nil => rw [hl] at hf; simp [found] at hf
  | cons q l =>
    simp only
    rw [← hl, List.mem_map]
    constructor
    · rintro ⟨p, h1, rfl⟩
      obtain ⟨h2, h3, h4⟩ := (hm p).mp h1
      exact ⟨p, h2, h3, h4, rfl⟩
    · rintro ⟨p, h2, h3, h4, rfl⟩
      exact ⟨p, (hm p).mpr ⟨h2, h3, h4⟩, rfl⟩

/-- **C188**, as far as it holds: if no other name in the list ends in the name asked for, and no other architecture begins
with the one asked for, then exactly the packages asked for are taken. -/
theorem C188_exact_partial (name arch : Str) (hn : 32 ∉ name) (packs : List Pack) (hp : ∀ p ∈ packs, Plain p)
    (h1 : ∀ p ∈ packs, name <:+ p.name → p.name = name) (h2 : ∀ p ∈ packs, arch <+: p.arch → p.arch = arch) (x : Str)
    (hf : found (nevras name arch packs) = true) :
    x ∈ nevras name arch packs ↔ ∃ p ∈ packs, p.name = name ∧ p.arch = arch ∧ x = p.nevra := by
  rw [C188_which name arch hn packs hp x hf]
  constructor
  · rintro ⟨p, hm, a, c, e⟩; exact ⟨p, hm, h1 p hm a, h2 p hm c, e⟩
  · rintro ⟨p, hm, a, c, e⟩; exact ⟨p, hm, a ▸ List.suffix_refl _, c ▸ List.prefix_refl _, e⟩

/-- **C188.** That there is no such package is noticed, and only then. -/
theorem C188_not_found (name arch : Str) (hn : 32 ∉ name) (packs : List Pack) (hp : ∀ p ∈ packs, Plain p) :
    found (nevras name arch packs) = false ↔ ¬ ∃ p ∈ packs, name <:+ p.name ∧ arch <+: p.arch := by
  unfold nevras
  cases hl : packs.filter (fun p => grep name arch p.line) with
  | nil =>
    simp only [found]
    refine ⟨fun _ => ?_, fun _ => by decide⟩
    rintro ⟨p, hm, h⟩
    exact List.filter_eq_nil_iff.mp hl p hm ((grep_line hn p (hp p hm)).mpr h)
  | cons q l =>
    have hq : q ∈ packs.filter (fun p => grep name arch p.line) := by rw [hl]; simp
    rw [List.mem_filter] at hq
    have hpl := hp q hq.1
    constructor
    · intro h
      exfalso
      simp only [found, List.map_cons, bne_eq_false_iff_eq, List.cons.injEq] at h
      have h3 := congrArg nameOf h.1
      rw [nevra_eq, nameOf, fields_append hpl.noSemi.1] at h3
      exact hpl.name (by simpa [nameOf, fields] using h3)
    · intro h
      exact absurd ⟨q, hq.1, (grep_line hn q hpl).mp hq.2⟩ h

/-- **C188 is false in general.** Whatever is asked for: a package with a longer name that ends in it is taken as well. -/
theorem C188_longer_name (name arch evr more : Str) (hm : more ≠ []) (hpl : Plain ⟨more ++ name, evr, arch⟩) (packs : List Pack)
    (hp : ∀ p ∈ packs, Plain p) (h : ⟨more ++ name, evr, arch⟩ ∈ packs) :
    (⟨more ++ name, evr, arch⟩ : Pack).nevra ∈ nevras name arch packs ∧ more ++ name ≠ name := by
  have hn : 32 ∉ name := fun hc => hpl.noBlank.1 (List.mem_append_right _ hc)
  have hex : ∃ p ∈ packs, name <:+ p.name ∧ arch <+: p.arch := ⟨_, h, List.suffix_append _ _, List.prefix_refl _⟩
  have hf : found (nevras name arch packs) = true := by
    cases hc : found (nevras name arch packs) with
    | true => rfl
    | false => exact absurd hex ((C188_not_found name arch hn packs hp).mp hc)
  refine ⟨(C188_which name arch hn packs hp _ hf).mpr ⟨_, h, List.suffix_append _ _, List.prefix_refl _, rfl⟩, ?_⟩
  intro e
  have := congrArg List.length e
  rw [List.length_append] at this
  exact hm (List.length_eq_zero_iff.mp (by omega))

def demoPacks : List Pack :=
  [⟨b "glibc", b "2.38-1.1", b "x86_64"⟩, ⟨b "glibc-devel", b "2.38-1.1", b "x86_64"⟩,
   ⟨b "cross-glibc", b "2.38-7", b "x86_64"⟩, ⟨b "glibc", b "2.38-1.1", b "ppc64le"⟩]

theorem demoPacks_plain : ∀ p ∈ demoPacks, Plain p := by
  intro p hp
  simp only [demoPacks, List.mem_cons, List.not_mem_nil, or_false] at hp
  rcases hp with rfl | rfl | rfl | rfl <;>
    exact ⟨by decide +kernel, by decide +kernel, by decide +kernel, by decide +kernel⟩

example : nevras (b "glibc") (b "x86_64") demoPacks = [b "glibc;2.38-1.1;x86_64", b "cross-glibc;2.38-7;x86_64"] := by
  decide +kernel

example : nevras (b "glibc") (b "ppc64le") demoPacks = [b "glibc;2.38-1.1;ppc64le"] := by decide +kernel

example : ∀ x, x ∈ nevras (b "glibc") (b "ppc64le") (demoPacks.drop 3) ↔
    ∃ p ∈ demoPacks.drop 3, p.name = b "glibc" ∧ p.arch = b "ppc64le" ∧ x = p.nevra := fun x =>
  C188_exact_partial _ _ (by decide +kernel) _ (fun p hp => demoPacks_plain p (List.mem_of_mem_drop hp)) (by decide +kernel)
    (by decide +kernel) x (by decide +kernel)

example : found (nevras (b "libopenssl3") (b "x86_64") demoPacks) = false :=
  (C188_not_found _ _ (by decide +kernel) _ demoPacks_plain).mpr (by decide +kernel)

/-! ### C189 -/

/-- **C189.** The parts that the script takes from what it has noted of a package are those of the package, and the file is
named after them. -/
theorem C189_parts (p : Pack) (hp : Plain p) :
    nameOf p.nevra = p.name ∧ versionOf p.nevra = p.evr ∧
    filename p.nevra = p.name ++ [45] ++ p.evr ++ [46] ++ p.arch ++ b ".rpm" := by
  refine ⟨?_, ?_, filename_nevra hp⟩
  · rw [nevra_eq, nameOf, fields_append hp.noSemi.1]; rfl
  · rw [nevra_eq, versionOf, fields_append hp.noSemi.1, fields_append hp.noSemi.2.1]; rfl

/-- **C189.** Different packages have different files. -/
theorem C189_distinct (p q : Pack) (hp : Plain p) (hq : Plain q) (rp : Rpm p) (rq : Rpm q)
    (h : filename p.nevra = filename q.nevra) : p = q := by
  rw [filename_nevra hp, filename_nevra hq] at h
  have h1 := List.append_cancel_right h
  obtain ⟨n, e, a⟩ := p
  obtain ⟨n', e', a'⟩ := q
  obtain ⟨⟨v, r, he, hv, hr⟩, ha⟩ := rp
  obtain ⟨⟨v', r', he', hv', hr'⟩, ha'⟩ := rq
  simp only at he he' ha ha' h1
  subst he
  subst he'
  simp only [List.append_assoc, List.singleton_append, List.cons_append, List.nil_append] at h1
  have h2 : (n ++ 45 :: (v ++ 45 :: r)) ++ 46 :: a = (n' ++ 45 :: (v' ++ 45 :: r')) ++ 46 :: a' := by simpa using h1
  obtain ⟨h3, rfl⟩ := split_last ha.1 ha'.1 h2
  have h4 : (n ++ 45 :: v) ++ 45 :: r = (n' ++ 45 :: v') ++ 45 :: r' := by simpa using h3
  obtain ⟨h5, rfl⟩ := split_last hr hr' h4
  obtain ⟨rfl, rfl⟩ := split_last hv hv' h5
  rfl

example : filename (Pack.nevra ⟨b "glibc", b "2.38-1.1", b "x86_64"⟩) = b "glibc-2.38-1.1.x86_64.rpm" := by decide +kernel

example : Rpm ⟨b "glibc", b "2.38-1.1", b "x86_64"⟩ :=
  ⟨⟨b "2.38", b "1.1", by decide +kernel, by decide +kernel, by decide +kernel⟩, by decide +kernel⟩

/-- Versions without a release would not do. -/
example : filename (Pack.nevra ⟨b "glibc-2", b "1", b "x86_64"⟩) = filename (Pack.nevra ⟨b "glibc", b "2-1", b "x86_64"⟩) := by
  decide +kernel

/-! ### C190 -/

/-- **C190**, as far as it holds: for times of the same number of digits (such as all from September 2001 to 2286) exactly the
packages older than the limit are dropped, unless asked not to. -/
theorem C190_age_partial (unsupported : Bool) (k file limit : Nat) (h1 : 10 ^ k ≤ file) (h2 : file < 10 ^ (k + 1))
    (h3 : 10 ^ k ≤ limit) (h4 : limit < 10 ^ (k + 1)) :
    dropped unsupported file limit = true ↔ unsupported = false ∧ file < limit := by
  unfold dropped
  rw [Bool.and_eq_true, textLess_dec k file limit h1 h2 h3 h4]
  simp

/-- **C190 is false in general.** With a limit of our time, a file from before September 2001 whose time has a greater first
digit (all since May 1976) is not dropped. -/
theorem C190_old_kept (unsupported : Bool) (file limit : Nat) (h1 : 2 * 10 ^ 8 ≤ file) (h2 : file < 10 * 10 ^ 8)
    (h3 : 10 ^ 9 ≤ limit) (h4 : limit < 2 * 10 ^ 9) : file < limit ∧ dropped unsupported file limit = false := by
  refine ⟨by omega, ?_⟩
  obtain ⟨s, hs⟩ := dec_first 9 1 (by omega) (by omega) limit (by omega) (by omega)
  have hd : ∃ d, 2 ≤ d ∧ d < 10 ∧ d * 10 ^ 8 ≤ file ∧ file < (d + 1) * 10 ^ 8 := by
    have hu : 0 < 10 ^ 8 := Nat.pow_pos (by omega)
    clear h3 h4 hs
    generalize 10 ^ 8 = u at h1 h2 hu ⊢
    refine ⟨file / u, ?_, ?_, Nat.div_mul_le_self _ _, ?_⟩
    · rw [Nat.le_div_iff_mul_le (by omega)]; exact h1
    · rw [Nat.div_lt_iff_lt_mul (by omega)]; omega
    · rw [Nat.mul_comm]; exact Nat.lt_mul_div_succ _ (by omega)
  obtain ⟨d, hd1, hd2, hd3, hd4⟩ := hd
  obtain ⟨t, ht⟩ := dec_first 8 d (by omega) hd2 file hd3 hd4
  unfold dropped
  rw [hs, ht]
  have n1 : ¬ (48 + d).toUInt8 < (48 + 1).toUInt8 := by rw [digit_lt hd2 (by omega)]; omega
  have n2 : ¬ (48 + d).toUInt8 = (48 + 1).toUInt8 := by rw [digit_eq hd2 (by omega)]; omega
  simp only [textLess]
  rw [decide_eq_false n1, beq_eq_false_iff_ne.mpr n2]
  simp

/-- Limits in 2025: a file of 2023 is dropped, one of the same day is not, one of 1999 is not. -/
example : dropped false 1680000000 1730000000 = true ∧ dropped false 1730000000 1730000000 = false ∧
    dropped false 930000000 1730000000 = false ∧ dropped true 1680000000 1730000000 = false := by
  refine ⟨(C190_age_partial false 9 _ _ ?_ ?_ ?_ ?_).mpr ⟨rfl, by omega⟩, ?_, (C190_old_kept false _ _ ?_ ?_ ?_ ?_).2, rfl⟩
  case refine_5 => rw [← Bool.not_eq_true, C190_age_partial false 9 _ _ (by omega) (by omega) (by omega) (by omega)]; simp
  all_goals omega

/-! ### C191 -/

theorem scan_word (t : List Cli.Opt) (w : Str) (ws : List Str) (h : Word w) :
    Cli.scan t none (w :: ws) = ((Cli.scan t none ws).1, w :: (Cli.scan t none ws).2) := by
  obtain ⟨h1, h2⟩ := h
  have n1 : ¬ w = [45, 45] := by rintro rfl; simp at h1
  have n2 : ¬ w.take 2 = [45, 45] := by
    intro e
    have := congrArg (List.take 1) e
    rw [List.take_take] at this
    exact h1 (by simpa using this)
  have n3 : ¬ (w.take 1 = [45] ∧ w ≠ [45]) := fun e => h1 e.1
  simp only [Cli.scan]
  rw [if_neg n1, if_neg n2, if_neg n3]

/-- An option of one letter with the next word as its value. -/
theorem scan_value (t : List Cli.Opt) (c : UInt8) (hc : c ≠ 45) (o : Cli.Opt) (ho : t.find? (fun o => o.short == some c) = some o)
    (ha : o.arg = .required) (v : Str) (ws : List Str) :
    Cli.scan t none ([45, c] :: v :: ws) = (.opt o.key (some v) :: (Cli.scan t none ws).1, (Cli.scan t none ws).2) := by
  have n1 : ¬ ([45, c] : Str) = [45, 45] := by simpa using hc
  have n2 : ¬ ([45, c] : Str).take 2 = [45, 45] := by simpa using hc
  have n3 : ([45, c] : Str).take 1 = [45] ∧ ([45, c] : Str) ≠ [45] := by simp
  rw [Cli.scan, if_neg n1, if_neg n2, if_pos n3]
  have : Cli.cluster t (List.drop 1 [45, c]) = ([], some o.key) := by
    simp only [List.drop_succ_cons, List.drop_zero, Cli.cluster, ho, ha, if_true]
  rw [this]
  rfl

theorem parse_extract (stack : Bool) (y : Cli.Sys) (ws : List Str) (evs : List Cli.Event) (rest : List Str)
    (h : Cli.scan (Cli.options stack (some .extract)) none ws = (evs, rest)) :
    Cli.main stack y (b "ulp" :: b "extract" :: ws) =
      match Cli.optionAll {} evs with
      | .error n => .exit n
      | .ok a => match Cli.words a (b "extract" :: rest) with
        | .error n => .exit n
        | .ok (c, a) => if Cli.requiresPtrace c then
            match Cli.ptraceScope y with | none => .abort | some false => .exit EPERM | some true => .run c a
          else .run c a := by
  have ho : Cli.ofArgs (b "ulp" :: b "extract" :: ws) = some .extract := by
    have h1 : Cli.ofString (b "ulp") = none := by decide +kernel
    have h2 : Cli.ofString (b "extract") = some .extract := by decide +kernel
    simp only [Cli.ofArgs, h1, h2]
  have hs := scan_word (Cli.options stack (some .extract)) (b "extract") ws (by unfold Word; decide +kernel)
  rw [h] at hs
  unfold Cli.main Cli.parse
  rw [ho, List.tail_cons, hs]
  simp only
  cases Cli.optionAll {} evs <;> rfl

theorem find_o (stack : Bool) : (Cli.options stack (some .extract)).find? (fun o => o.short == some 111) = some Cli.oOutput := by
  cases stack <;> decide +kernel

def oDebug : Cli.Opt := ⟨b "with-debuginfo", Cli.chr 'd', .debuginfo, .required⟩

theorem find_d (stack : Bool) : (Cli.options stack (some .extract)).find? (fun o => o.short == some 100) = some oDebug := by
  cases stack <;> decide +kernel

theorem words_one (a : Cli.Arguments) (hq : (a.quiet && a.verbose) = false) (so : Str) :
    Cli.words a (b "extract" :: [so]) = .ok (.extract, { a with arg := some so }) := by
  have h2 : Cli.ofString (b "extract") = some .extract := by decide +kernel
  simp only [Cli.words, h2, Cli.endOk, hq]
  rfl

/-- **C191**, as far as it holds: a library with its one debug file is described from both, into the file named after it. -/
theorem C191_described_partial (stack : Bool) (y : Cli.Sys) (lp : Bool) (so dbg : Str) (hso : Word so) :
    Cli.main stack y (extractTask false lp so [dbg]) =
      .run .extract { arg := some so, debuginfo := some dbg, metadata := some (so ++ b ".json") } := by
  have hd : b "-d" = [45, 100] := by decide +kernel
  have ho : b "-o" = [45, 111] := by decide +kernel
  have he : extractTask false lp so [dbg] = b "ulp" :: b "extract" :: [so, [45, 100], dbg, [45, 111], so ++ b ".json"] := by
    rw [← hd, ← ho]; simp [extractTask]
  rw [he, parse_extract stack y _ _ _ (by
    rw [scan_word _ _ _ hso, scan_value _ 100 (by decide) _ (find_d stack) rfl, scan_value _ 111 (by decide) _ (find_o stack) rfl])]
  simp only [Cli.scan, Cli.optionAll, Cli.option, oDebug, Cli.oOutput]
  rw [words_one _ rfl]
  rfl

/-- **C191**, as far as it holds: when no debug information was asked for, a library is described from itself. -/
theorem C191_described_alone_partial (stack : Bool) (y : Cli.Sys) (lp : Bool) (so : Str) (hso : Word so) (matching : List Str) :
    Cli.main stack y (extractTask true lp so matching) =
      .run .extract { arg := some so, debuginfo := none, metadata := some (so ++ b ".json") } := by
  have ho : b "-o" = [45, 111] := by decide +kernel
  have he : extractTask true lp so matching = b "ulp" :: b "extract" :: [so, [45, 111], so ++ b ".json"] := by
    rw [← ho]; simp [extractTask]
  rw [he, parse_extract stack y _ _ _ (by
    rw [scan_word _ _ _ hso, scan_value _ 111 (by decide) _ (find_o stack) rfl])]
  simp only [Cli.scan, Cli.optionAll, Cli.option, Cli.oOutput]
  rw [words_one _ rfl]
  rfl

/-- **C191**, as far as it holds: a library with no debug file, or with several that could be its own, is passed over: the
command is refused. -/
theorem C191_no_debuginfo_partial (stack : Bool) (y : Cli.Sys) (lp : Bool) (so : Str) (hso : Word so) (matching : List Str)
    (hm : matching.length ≠ 1) : Cli.main stack y (extractTask false lp so matching) = .exit 64 := by
  have hd : b "-d" = [45, 100] := by decide +kernel
  have he : extractTask false lp so matching = b "ulp" :: b "extract" :: [so, [45, 100], b "-o", so ++ b ".json"] := by
    rw [← hd]; simp [extractTask, hm]
  have hj : Word (so ++ b ".json") := by
    obtain ⟨h1, h2⟩ := hso
    cases so with
    | nil => exact absurd rfl h2
    | cons c s => exact ⟨by simpa using h1, by simp⟩
  rw [he, parse_extract stack y _ _ _ (by
    rw [scan_word _ _ _ hso, scan_value _ 100 (by decide) _ (find_d stack) rfl, scan_word _ _ _ hj])]
  have h2 : Cli.ofString (b "extract") = some .extract := by decide +kernel
  simp only [Cli.scan, Cli.optionAll, Cli.option, oDebug, Cli.words, h2]
  rfl

/-- **C191 is false in general.** A library that is not live-patchable is described all the same, like any other. -/
theorem C191_not_livepatchable (stack : Bool) (y : Cli.Sys) (so dbg : Str) (hso : Word so) :
    Cli.main stack y (extractTask false false so [dbg]) = Cli.main stack y (extractTask false true so [dbg]) ∧
    ∃ a, Cli.main stack y (extractTask false false so [dbg]) = .run .extract a ∧ a.metadata = some (so ++ b ".json") := by
  rw [C191_described_partial stack y false so dbg hso, C191_described_partial stack y true so dbg hso]
  exact ⟨rfl, _, rfl, rfl⟩

example : extractTask false true (b "./lib64/libc.so.6") [b "./libc.so.6-2.38.debug"] =
    [b "ulp", b "extract", b "./lib64/libc.so.6", b "-d", b "./libc.so.6-2.38.debug", b "-o", b "./lib64/libc.so.6.json"] ∧
    Word (b "./lib64/libc.so.6") := by unfold Word; decide +kernel

example : extractTask false true (b "./lib64/libc.so.6") [] =
    [b "ulp", b "extract", b "./lib64/libc.so.6", b "-d", b "-o", b "./lib64/libc.so.6.json"] := by decide +kernel

end Verif.Setup
