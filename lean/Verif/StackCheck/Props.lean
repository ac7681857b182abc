import Verif.StackCheck.Spec
import Verif.SymLoad.Props

namespace Verif.StackCheck

open Spec

/-! ### Numbers -/

theorem hexVal_eq (c : UInt8) {d : Nat} (h : "0123456789abcdef".toUTF8.toList.idxOf? c = some d) : hexVal c = some d := by
  have key : ∀ n : Fin 256, ∀ d : Fin 16, "0123456789abcdef".toUTF8.toList.idxOf? (UInt8.ofNat n.val) = some d.val → hexVal (UInt8.ofNat n.val) = some d.val := by decide +kernel
  have hd : d < 16 := by
    have := List.of_findIdx?_eq_some h
    by_cases hlt : d < 16
    · exact hlt
    · have hl : "0123456789abcdef".toUTF8.toList.length = 16 := by decide +kernel
      rw [List.getElem?_eq_none (by omega)] at this
      simp at this
  have := key ⟨c.toNat, c.toNat_lt⟩ ⟨d, hd⟩
  simp only [UInt8.ofNat_toNat] at this
  exact this h

def hexStep (v : Option Nat) (c : UInt8) : Option Nat := match v, "0123456789abcdef".toUTF8.toList.idxOf? c with
  | some v, some d => some (16 * v + d)
  | _, _ => none

theorem hexOf_eq (s : Str) : hexOf s = s.foldl hexStep (some 0) := rfl

theorem hexStep_none (s : Str) : s.foldl hexStep none = none := by
  induction s with
  | nil => rfl
  | cons c s ih => rw [List.foldl_cons, show hexStep none c = none from rfl, ih]

theorem hexFold_cons {acc v : Nat} {c : UInt8} {s : Str} (h : (c :: s).foldl hexStep (some acc) = some v) :
    ∃ d, hexVal c = some d ∧ s.foldl hexStep (some (16 * acc + d)) = some v := by
  rw [List.foldl_cons] at h
  cases hc : "0123456789abcdef".toUTF8.toList.idxOf? c with
  | none =>
    rw [show hexStep (some acc) c = none by unfold hexStep; rw [hc], hexStep_none] at h
    simp at h
  | some d =>
    rw [show hexStep (some acc) c = some (16 * acc + d) by unfold hexStep; rw [hc]] at h
    exact ⟨d, hexVal_eq c hc, h⟩

theorem digits_ok {a : Str} {acc v : Nat} (h : a.foldl hexStep (some acc) = some v) {c : UInt8} (hc : hexVal c = none) (rest : Str) :
    digits acc (a ++ c :: rest) = (v, c :: rest) := by
  induction a generalizing acc with
  | nil =>
    obtain rfl := Option.some.inj h
    simp [digits, hc]
  | cons x a ih =>
    obtain ⟨d, h1, h2⟩ := hexFold_cons h
    simp only [List.cons_append, digits, h1]
    exact ih h2

theorem hexVal_plain {c : UInt8} {d : Nat} (h : hexVal c = some d) : isSpace c = false ∧ c ≠ 45 ∧ c ≠ 43 ∧ c ≠ 120 ∧ c ≠ 88 := by
  have key : ∀ n : Fin 256, (hexVal (UInt8.ofNat n.val)).isSome = true → isSpace (UInt8.ofNat n.val) = false ∧ UInt8.ofNat n.val ≠ 45 ∧ UInt8.ofNat n.val ≠ 43 ∧
    UInt8.ofNat n.val ≠ 120 ∧ UInt8.ofNat n.val ≠ 88 := by decide +kernel
  have := key ⟨c.toNat, c.toNat_lt⟩
  simp only [UInt8.ofNat_toNat] at this
  exact this (by rw [h]; rfl)

theorem skip0x_keep {s : Str} (h : ∀ x t, s = 48 :: x :: t → x ≠ 120 ∧ x ≠ 88) : skip0x s = s := by
  unfold skip0x
  split
  · rename_i x c t
    have := h x (c :: t) rfl
    rw [if_neg]
    rintro ⟨hx, -⟩
    rcases hx with hx | hx
    · exact this.1 hx
    · exact this.2 hx
  · rfl

theorem strtoul_ok {a : Str} {v : Nat} (ha : a ≠ []) (h : hexOf a = some v) (hv : v < 2 ^ 64) {c : UInt8} (hc : hexVal c = none) (h1 : c ≠ 120) (h2 : c ≠ 88) (rest : Str) :
    strtoul (a ++ c :: rest) = (v, c :: rest, false) := by
  rw [hexOf_eq] at h
  have hd := digits_ok h hc rest
  obtain ⟨x, a, rfl⟩ := List.exists_cons_of_ne_nil ha
  obtain ⟨d, g1, g2⟩ := hexFold_cons h
  obtain ⟨p1, p2, p3, -, -⟩ := hexVal_plain g1
  have hs : skip0x (x :: (a ++ c :: rest)) = x :: (a ++ c :: rest) := by
    apply skip0x_keep
    intro y t hy
    cases a with
    | nil =>
      simp only [List.nil_append, List.cons.injEq] at hy
      exact ⟨hy.2.1 ▸ h1, hy.2.1 ▸ h2⟩
    | cons z a =>
      simp only [List.cons_append, List.cons.injEq] at hy
      obtain ⟨d', g3, -⟩ := hexFold_cons g2
      obtain ⟨-, -, -, q1, q2⟩ := hexVal_plain g3
      exact ⟨hy.2.1 ▸ q1, hy.2.1 ▸ q2⟩
  unfold strtoul
  simp only [List.cons_append] at hd ⊢
  rw [List.dropWhile_cons_of_neg (by simp [p1])]
  have hm : sign (x :: (a ++ c :: rest)) = (false, x :: (a ++ c :: rest)) := by
    unfold sign
    simp only [if_neg p2, if_neg p3]
  rw [hm]
  simp only [hs, g1, hd]
  rw [if_neg (by omega)]
  simp

/-! ### The range -/

theorem rangeStep_named {library : Str} {r : Region} (hv : r.Valid) (hn : r.Named library) (x : Range) :
    rangeStep library x r.line = ⟨if r.lo < x.lo then r.lo else x.lo, if r.hi > x.hi then r.hi else x.hi, x.err⟩ := by
  obtain ⟨h1, h2, a, b, rest, ha, hb, hla, hlb, hl⟩ := hv
  unfold rangeStep
  rw [if_pos ((SymLoad.strstr_iff _ _).mpr hn), hl, strtoul_ok ha hla (by omega) (by decide) (by decide) (by decide)]
  simp only [List.drop_succ_cons, List.drop_zero]
  rw [strtoul_ok hb hlb h2 (by decide) (by decide) (by decide)]
  simp

theorem rangeStep_other {library : Str} {r : Region} (hn : ¬ r.Named library) (x : Range) : rangeStep library x r.line = x := by
  unfold rangeStep
  rw [if_neg (fun h => hn ((SymLoad.strstr_iff _ _).mp h))]

theorem range_ok (library : Str) (rs : List Region) (hv : ∀ r ∈ rs, r.Valid) (x : Range) (pc : Nat) :
    let y := (rs.map (·.line)).foldl (rangeStep library) x
    y.err = x.err ∧ (y.lo < pc ↔ x.lo < pc ∨ ∃ r ∈ rs, r.Named library ∧ r.lo < pc) ∧ (pc < y.hi ↔ pc < x.hi ∨ ∃ r ∈ rs, r.Named library ∧ pc < r.hi) := by
  induction rs generalizing x with
  | nil => simp
  | cons r rs ih =>
    simp only [List.map_cons, List.foldl_cons]
    have hv' : ∀ r ∈ rs, r.Valid := fun q hq => hv q (List.mem_cons_of_mem _ hq)
    by_cases hn : r.Named library
    · rw [rangeStep_named (hv r (by simp)) hn]
      obtain ⟨e1, e2, e3⟩ := ih hv' ⟨if r.lo < x.lo then r.lo else x.lo, if r.hi > x.hi then r.hi else x.hi, x.err⟩
      refine ⟨e1, e2.trans ?_, e3.trans ?_⟩
      · simp only [List.mem_cons, exists_eq_or_imp, hn, true_and]
        split <;> constructor <;> rintro (h | h)
        · exact Or.inr (Or.inl h)
        · exact Or.inr (Or.inr h)
        · exact Or.inl (by omega)
        · rcases h with h | h
          · exact Or.inl h
          · exact Or.inr h
        · exact Or.inl h
        · exact Or.inr (Or.inr h)
        · exact Or.inl h
        · rcases h with h | h
          · exact Or.inl (by omega)
          · exact Or.inr h
      · simp only [List.mem_cons, exists_eq_or_imp, hn, true_and]
        split <;> constructor <;> rintro (h | h)
        · exact Or.inr (Or.inl h)
        · exact Or.inr (Or.inr h)
        · exact Or.inl (by omega)
        · rcases h with h | h
          · exact Or.inl h
          · exact Or.inr h
        · exact Or.inl h
        · exact Or.inr (Or.inr h)
        · exact Or.inl h
        · rcases h with h | h
          · exact Or.inl (by omega)
          · exact Or.inr h
    · rw [rangeStep_other hn]
      obtain ⟨e1, e2, e3⟩ := ih hv' x
      refine ⟨e1, e2.trans ?_, e3.trans ?_⟩ <;> simp [hn]

theorem walk_iff (r : Range) (w : Walk) : walkLoop r w = some false ↔ Whole w ∧ ∀ pc ∈ pcs w, ¬ (r.lo < pc ∧ pc < r.hi) := by
  induction w with
  | done => simp [walkLoop, Whole, pcs]
  | fail => simp [walkLoop, Whole]
  | frame pc w ih =>
    unfold walkLoop
    by_cases h : r.lo < pc ∧ pc < r.hi
    · rw [if_pos h]
      simp only [pcs, List.forall_mem_cons]
      constructor
      · intro h'; simp at h'
      · rintro ⟨-, h', -⟩; exact absurd h h'
    · rw [if_neg h, ih]
      simp only [pcs, List.forall_mem_cons, Whole]
      exact ⟨fun ⟨h1, h2⟩ => ⟨h1, h, h2⟩, fun ⟨h1, _, h2⟩ => ⟨h1, h2⟩⟩

theorem thread_iff (r : Range) (ws : List Walk) : threadLoop r ws = 0 ↔ ∀ w ∈ ws, walkLoop r w = some false := by
  induction ws with
  | nil => simp [threadLoop]
  | cons w ws ih =>
    unfold threadLoop
    cases h : walkLoop r w with
    | none => simp [h]
    | some b => cases b <;> simp [h, ih]

/-! ### C95: the stack check -/

/-- C95, exactly when the check passes: the stacks of all threads can be walked to the end, and no address on them is between the lowest start and the highest end of the mappings
whose line has the name of the library in it. -/
theorem C95_check_iff {library : Str} {rs : List Region} {threads : List Walk} (hv : ∀ r ∈ rs, r.Valid) (hpc : ∀ w ∈ threads, ∀ pc ∈ pcs w, pc < 2 ^ 64) :
    check (some library) (rs.map (·.line)) threads = some 0 ↔
      ∀ w ∈ threads, Whole w ∧ ∀ pc ∈ pcs w, ¬ ((∃ r ∈ rs, r.Named library ∧ r.lo < pc) ∧ ∃ r ∈ rs, r.Named library ∧ pc < r.hi) := by
  unfold check libraryRange
  simp only
  rw [if_neg (by rw [(range_ok library rs hv ⟨2 ^ 64 - 1, 0, false⟩ 0).1]; simp), Option.some.injEq, thread_iff]
  refine forall_congr' fun w => forall_congr' fun hw => ?_
  rw [walk_iff]
  refine and_congr Iff.rfl (forall_congr' fun pc => forall_congr' fun hm => not_congr (and_congr ?_ ?_))
  · rw [(range_ok library rs hv ⟨2 ^ 64 - 1, 0, false⟩ pc).2.1]
    have := hpc w hw pc hm
    simp only
    exact ⟨fun h => h.resolve_left (by omega), Or.inr⟩
  · rw [(range_ok library rs hv ⟨2 ^ 64 - 1, 0, false⟩ pc).2.2]
    simp

/-- C95: no live patch passes the check while a thread has a frame in a mapping of the library.  Partial: the mapping's line has the name of the library from the metadata in
it, and the address is not the first one of the library; see below. -/
theorem C95_inside_refused_partial {library : Str} {rs : List Region} {threads : List Walk} (hv : ∀ r ∈ rs, r.Valid) (hpc : ∀ w ∈ threads, ∀ pc ∈ pcs w, pc < 2 ^ 64)
    {r : Region} (hr : r ∈ rs) (hn : r.Named library) {w : Walk} (hw : w ∈ threads) {pc : Nat} (hm : pc ∈ pcs w) (hin : r.lo ≤ pc ∧ pc < r.hi)
    (hfirst : pc ≠ r.lo ∨ ∃ q ∈ rs, q.Named library ∧ q.lo < r.lo) : check (some library) (rs.map (·.line)) threads ≠ some 0 := by
  rw [Ne, C95_check_iff hv hpc]
  intro h
  refine (h w hw).2 pc hm ⟨?_, r, hr, hn, hin.2⟩
  rcases hfirst with hf | ⟨q, hq, hqn, hql⟩
  · exact ⟨r, hr, hn, by omega⟩
  · exact ⟨q, hq, hqn, by omega⟩

/-- C95: also if a stack cannot be walked, the check does not pass. -/
theorem C95_broken_stack_refused {library : Str} {rs : List Region} {threads : List Walk} (hv : ∀ r ∈ rs, r.Valid) (hpc : ∀ w ∈ threads, ∀ pc ∈ pcs w, pc < 2 ^ 64)
    {w : Walk} (hw : w ∈ threads) (hb : ¬ Whole w) : check (some library) (rs.map (·.line)) threads ≠ some 0 := by
  rw [Ne, C95_check_iff hv hpc]
  exact fun h => hb (h w hw).1

/-- C95: a process all of whose threads are elsewhere passes. -/
theorem C95_outside_accepted {library : Str} {rs : List Region} {threads : List Walk} (hv : ∀ r ∈ rs, r.Valid) (hpc : ∀ w ∈ threads, ∀ pc ∈ pcs w, pc < 2 ^ 64)
    {lo hi : Nat} (hlib : ∀ r ∈ rs, r.Named library → lo ≤ r.lo ∧ r.hi ≤ hi) (hout : ∀ w ∈ threads, Whole w ∧ ∀ pc ∈ pcs w, pc < lo ∨ hi ≤ pc) :
    check (some library) (rs.map (·.line)) threads = some 0 := by
  rw [C95_check_iff hv hpc]
  refine fun w hw => ⟨(hout w hw).1, fun pc hm => ?_⟩
  rintro ⟨⟨r, hr, hn, h1⟩, q, hq, hqn, h2⟩
  have e1 := hlib r hr hn
  have e2 := hlib q hq hqn
  rcases (hout w hw).2 pc hm with h | h <;> omega

/-- C95 is false of a library whose mappings do not have in their lines the name given in the metadata (for instance since that is a symbolic link): every process passes whose
stacks can be walked, wherever its threads are. -/
theorem C95_other_name {library : Str} {rs : List Region} {threads : List Walk} (hv : ∀ r ∈ rs, r.Valid) (hpc : ∀ w ∈ threads, ∀ pc ∈ pcs w, pc < 2 ^ 64)
    (hno : ∀ r ∈ rs, ¬ r.Named library) (hw : ∀ w ∈ threads, Whole w) : check (some library) (rs.map (·.line)) threads = some 0 := by
  rw [C95_check_iff hv hpc]
  refine fun w hm => ⟨hw w hm, fun pc _ => ?_⟩
  rintro ⟨⟨r, hr, hn, -⟩, -⟩
  exact hno r hr hn

/-- C95 is false of a thread at the first address of the library. -/
theorem C95_first_address_missed {library : Str} {rs : List Region} {r : Region} (hv : ∀ r ∈ rs, r.Valid) (hr : r ∈ rs) (hlow : ∀ q ∈ rs, q.Named library → r.lo ≤ q.lo) :
    check (some library) (rs.map (·.line)) [.frame r.lo .done] = some 0 := by
  have hvr := hv r hr
  rw [C95_check_iff hv (by simp only [List.mem_singleton, forall_eq, pcs]; have h1 := hvr.1; have h2 := hvr.2.1; omega)]
  simp only [List.mem_singleton, forall_eq, pcs, Whole, true_and]
  rintro ⟨⟨q, hq, hqn, h1⟩, -⟩
  have := hlow q hq hqn
  omega

/-! ### C96: what the trigger tool does with it -/

open Verif.Trigger (Attempt Event Task attempt)

theorem checked_events (task : Task) (target : Option Str) (env : Nat → Env) (fuel retry i : Nat) (result : Int) (k : Nat) (ev : List Event)
    (hk : (loopChecked task target env fuel retry i result).2[k]? = some ev) (hev : .apply ∈ ev ∨ .revert ∈ ev) :
    check target (env (i + k)).maps (env (i + k)).threads = some 0 := by
  induction fuel generalizing retry i result k with
  | zero => simp [loopChecked] at hk
  | succ fuel ih =>
    unfold loopChecked at hk
    split at hk
    · simp at hk
    · split at hk
      · cases k with
        | zero =>
          simp only [List.getElem?_cons_zero, Option.some.injEq] at hk
          subst hk
          simp at hev
        | succ k => simp at hk
      · cases ha : attemptChecked task target (env i) result (retry - 1) with
        | none =>
          rw [ha] at hk
          cases k with
          | zero =>
            simp only [List.getElem?_cons_zero, Option.some.injEq] at hk
            subst hk
            simp at hev
          | succ k => simp at hk
        | some x =>
          obtain ⟨res, ret, e⟩ := x
          rw [ha] at hk
          simp only at hk
          cases k with
          | succ k =>
            rw [List.getElem?_cons_succ] at hk
            have := ih _ _ _ _ hk
            rwa [show i + 1 + k = i + (k + 1) by omega] at this
          | zero =>
            simp only [List.getElem?_cons_zero, Option.some.injEq] at hk
            unfold attemptChecked at ha
            cases hc : check target (env i).maps (env i).threads with
            | none => rw [hc] at ha; simp at ha
            | some v =>
              rw [hc] at ha
              simp only at ha
              split at ha
              · simp only [Option.some.injEq, Prod.mk.injEq] at ha
                rw [← hk, ← ha.2.2] at hev
                simp at hev
              · rename_i hv
                congr 1
                omega

/-- C96: with `--check-stack`, no attempt in which the check does not pass reverts or applies anything. -/
theorem C96_no_change_when_refused (task : Task) (library : Str) (env : Nat → Env) (retries i : Nat) (ev : List Event)
    (hi : (triggerChecked task library env retries).2[i]? = some ev) (hbad : check (some library) (env i).maps (env i).threads ≠ some 0) : .apply ∉ ev ∧ .revert ∉ ev := by
  unfold triggerChecked at hi
  have key := checked_events task _ env retries retries 0 (-1) i ev hi
  rw [Nat.zero_add] at key
  constructor <;> intro h
  · have := key (Or.inl h)
    split at this
    · exact hbad this
    · simp [check] at this
  · have := key (Or.inr h)
    split at this
    · exact hbad this
    · simp [check] at this

theorem checked_success {task : Task} (ht : task.revert = true ∨ task.livepatch = true) (target : Option Str) (env : Nat → Env) (fuel retry i : Nat) (result : Int) (hres : result ≠ 0)
    (h : (loopChecked task target env fuel retry i result).1 = some 0) :
    ∃ k, check target (env (i + k)).maps (env (i + k)).threads = some 0 := by
  induction fuel generalizing retry i result with
  | zero => exact absurd (Option.some.inj h) hres
  | succ fuel ih =>
    unfold loopChecked at h
    split at h
    · exact absurd (Option.some.inj h) hres
    · split at h
      · rename_i hh
        have := Option.some.inj h
        omega
      · cases hc : check target (env i).maps (env i).threads with
        | none =>
          unfold attemptChecked at h
          rw [hc] at h
          simp at h
        | some v =>
          by_cases hv : v = 0
          · exact ⟨0, by rw [Nat.add_zero, hc, hv]⟩
          · unfold attemptChecked at h
            rw [hc] at h
            simp only [if_pos hv] at h
            obtain ⟨k, hk⟩ := ih _ _ _ hres h
            exact ⟨k + 1, by rwa [show i + (k + 1) = i + 1 + k by omega]⟩

/-- C96: if the check never passes, success is not reported. -/
theorem C96_refusal_reported (task : Task) (ht : task.revert = true ∨ task.livepatch = true) (library : Str) (env : Nat → Env) (retries : Nat)
    (hbad : ∀ i, check (some library) (env i).maps (env i).threads ≠ some 0) : (triggerChecked task library env retries).1 ≠ some 0 := by
  intro h
  unfold triggerChecked at h
  obtain ⟨k, hk⟩ := checked_success ht _ env retries retries 0 (-1) (by decide) h
  rw [Nat.zero_add] at hk
  split at hk
  · exact hbad k hk
  · simp [check] at hk

/-- C96: as long as the check does not pass the process is let go and tried again, as often as asked for. -/
theorem C96_tried_again (task : Task) (hl : task.livepatch = true) (library : Str) (env : Nat → Env) (retries : Nat) (hh : ∀ i, (env i).steps.hijack = 0 ∧ (env i).steps.restore = 0)
    (hbad : ∀ i, check (some library) (env i).maps (env i).threads ≠ some 0) :
    triggerChecked task library env retries = (some (-1), List.replicate retries [.hijack, .restore]) := by
  have key : ∀ fuel i, loopChecked task (some library) env fuel fuel i (-1) = (some (-1), List.replicate fuel [.hijack, .restore]) := by
    intro fuel
    induction fuel with
    | zero => intro i; rfl
    | succ fuel ih =>
      intro i
      unfold loopChecked
      rw [if_neg (by omega), if_neg (by rw [(hh i).1]; decide)]
      unfold attemptChecked
      cases hc : check (some library) (env i).maps (env i).threads with
      | none => simp [check] at hc; split at hc <;> simp at hc
      | some v =>
        have hv : v ≠ 0 := fun h => hbad i (by rw [hc, h])
        simp only [if_pos hv, (hh i).2]
        simp [ih (i + 1), List.replicate_succ]
  unfold triggerChecked
  rw [if_pos hl]
  exact key retries 0

/-- C96 is false of `--revert-all` without a live patch: the tool crashes, with all threads of the process stopped. -/
theorem C96_revert_all_crashes (task : Task) (hl : task.livepatch = false) (library : Str) (env : Nat → Env) (retries : Nat) (hr : 0 < retries) (hh : (env 0).steps.hijack = 0) :
    triggerChecked task library env retries = (none, [[.hijack]]) := by
  unfold triggerChecked
  rw [if_neg (by rw [hl]; decide)]
  obtain ⟨k, rfl⟩ : ∃ k, retries = k + 1 := ⟨retries - 1, by omega⟩
  unfold loopChecked
  rw [if_neg (by omega), if_neg (by rw [hh]; decide)]
  rfl

/-! ### A process -/

def demoRegions : List Region :=
  [⟨0x400000, 0x401000, "00400000-00401000 r-xp 00000000 08:01 7 /bin/x\n".toUTF8.toList⟩,
    ⟨0x7f0000001000, 0x7f0000002000, "7f0000001000-7f0000002000 r--p 00000000 08:01 8 /lib64/liba.so.1\n".toUTF8.toList⟩,
    ⟨0x7f0000002000, 0x7f0000009000, "7f0000002000-7f0000009000 r-xp 00001000 08:01 8 /lib64/liba.so.1\n".toUTF8.toList⟩]

theorem demo_valid : ∀ r ∈ demoRegions, r.Valid := by
  intro r hr
  simp only [demoRegions, List.mem_cons, List.not_mem_nil, or_false] at hr
  rcases hr with rfl | rfl | rfl
  · exact ⟨by decide, by decide, "00400000".toUTF8.toList, "00401000".toUTF8.toList, "r-xp 00000000 08:01 7 /bin/x\n".toUTF8.toList, by decide +kernel, by decide +kernel, by decide +kernel,
      by decide +kernel, by decide +kernel⟩
  · exact ⟨by decide, by decide, "7f0000001000".toUTF8.toList, "7f0000002000".toUTF8.toList, "r--p 00000000 08:01 8 /lib64/liba.so.1\n".toUTF8.toList, by decide +kernel, by decide +kernel,
      by decide +kernel, by decide +kernel, by decide +kernel⟩
  · exact ⟨by decide, by decide, "7f0000002000".toUTF8.toList, "7f0000009000".toUTF8.toList, "r-xp 00001000 08:01 8 /lib64/liba.so.1\n".toUTF8.toList, by decide +kernel, by decide +kernel,
      by decide +kernel, by decide +kernel, by decide +kernel⟩

def demoLib : Str := "liba.so.1".toUTF8.toList

theorem demo_named : demoRegions[2]!.Named demoLib := (SymLoad.strstr_iff _ _).mp (by decide +kernel)

/-- Two threads; the second was called from the library. -/
def demoThreads : List Walk := [.frame 0x400123 .done, .frame 0x400200 (.frame 0x7f0000003456 .done)]

example : check (some demoLib) (demoRegions.map (·.line)) demoThreads ≠ some 0 :=
  C95_inside_refused_partial demo_valid (by decide) (r := demoRegions[2]!) (by simp [demoRegions]) demo_named (w := demoThreads[1]!) (by decide) (pc := 0x7f0000003456) (by decide)
    (by decide) (Or.inl (by decide))

example : check (some demoLib) (demoRegions.map (·.line)) (demoThreads.take 1) = some 0 :=
  C95_outside_accepted demo_valid (by decide) (lo := 0x7f0000001000) (hi := 0x7f0000009000)
    (fun r hr hn => by
      simp only [demoRegions, List.mem_cons, List.not_mem_nil, or_false] at hr
      rcases hr with rfl | rfl | rfl
      · exact absurd ((SymLoad.strstr_iff _ _).mpr hn) (by decide +kernel)
      · decide
      · decide) (by simp [demoThreads, pcs, Whole])

/-- A stack that cannot be walked. -/
example : check (some demoLib) (demoRegions.map (·.line)) [.frame 0x400123 .fail] ≠ some 0 :=
  C95_broken_stack_refused demo_valid (by decide) (List.mem_singleton_self _) (by simp [Whole])

/-- The metadata has the name of a symbolic link: the same threads pass. -/
example : check (some "/usr/lib64/liba.so.1".toUTF8.toList) (demoRegions.map (·.line)) demoThreads = some 0 :=
  C95_other_name demo_valid (by decide) (fun r hr hn => by
      simp only [demoRegions, List.mem_cons, List.not_mem_nil, or_false] at hr
      rcases hr with rfl | rfl | rfl <;> exact absurd ((SymLoad.strstr_iff _ _).mpr hn) (by decide +kernel)) (by simp [demoThreads, Whole])

example : check (some demoLib) (demoRegions.map (·.line)) [.frame 0x7f0000001000 .done] = some 0 :=
  C95_first_address_missed (r := demoRegions[1]!) demo_valid (by simp [demoRegions]) (fun r hr hn => by
      simp only [demoRegions, List.mem_cons, List.not_mem_nil, or_false] at hr
      rcases hr with rfl | rfl | rfl
      · exact absurd ((SymLoad.strstr_iff _ _).mpr hn) (by decide +kernel)
      · decide
      · decide)

/-- In the library at the first attempt, elsewhere at the second: applied then. -/
def demoEnv (i : Nat) : Env := ⟨⟨0, 0, 0, 0⟩, demoRegions.map (·.line), if i = 0 then demoThreads else demoThreads.take 1⟩

example : triggerChecked ⟨false, true⟩ demoLib demoEnv 5 = (some 0, [[.hijack, .restore], [.hijack, .apply, .restore]]) := by decide +kernel

example : (.apply : Event) ∉ [Event.hijack, .restore] ∧ .revert ∉ [Event.hijack, .restore] :=
  C96_no_change_when_refused ⟨false, true⟩ demoLib demoEnv 5 0 _ (by decide +kernel) (by decide +kernel)

example : (triggerChecked ⟨false, true⟩ demoLib (fun _ => demoEnv 0) 5).1 ≠ some 0 := C96_refusal_reported _ (Or.inr rfl) _ _ _ (fun _ => by decide +kernel)

example : triggerChecked ⟨false, true⟩ demoLib (fun _ => demoEnv 0) 3 = (some (-1), [[.hijack, .restore], [.hijack, .restore], [.hijack, .restore]]) :=
  C96_tried_again _ rfl _ _ _ (fun _ => ⟨rfl, rfl⟩) (fun _ => by decide +kernel)

example : triggerChecked ⟨true, false⟩ demoLib demoEnv 5 = (none, [[.hijack]]) := C96_revert_all_crashes _ rfl _ _ _ (by decide) rfl

example := C95_check_iff (library := demoLib) (threads := demoThreads) demo_valid (by decide)

end Verif.StackCheck
