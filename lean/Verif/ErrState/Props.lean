import Verif.ErrState.Model
import Verif.ErrState.Spec

/-! C48 (disabling by environment), C52 (`ulp set_patchable`), C57 (errors at start are kept). -/

namespace Verif.ErrState

open Spec

/-! ### C48 -/

theorem last_append (a b : Str) (c : UInt8) : (a ++ c :: b).getLast? = (c :: b).getLast? := by
  rw [List.getLast?_append, List.getLast?_cons]; rfl

theorem not_token_nil (t : Str) : ¬ IsToken t [] := by
  rintro ⟨h, -, pre, post, e, -⟩
  have := congrArg List.length e
  have hl : 0 < t.length := List.length_pos_iff.2 h
  simp at this; omega

theorem token_cons_sep (t cs : Str) : IsToken t (58 :: cs) ↔ IsToken t cs := by
  constructor
  · rintro ⟨h1, h2, pre, post, e, h3, h4⟩
    cases pre with
    | nil =>
      cases t with
      | nil => exact absurd rfl h1
      | cons b bs =>
        simp only [List.nil_append, List.cons_append, List.cons.injEq] at e
        exact absurd (by rw [e.1]; simp) h2
    | cons p pre =>
      simp only [List.cons_append, List.cons.injEq] at e
      refine ⟨h1, h2, pre, post, by rw [e.2], ?_, h4⟩
      rcases h3 with h3 | h3
      · cases h3
      · cases pre with
        | nil => exact .inl rfl
        | cons q pre => right; rw [List.getLast?_cons_cons] at h3; exact h3
  · rintro ⟨h1, h2, pre, post, rfl, h3, h4⟩
    refine ⟨h1, h2, 58 :: pre, post, by simp, .inr ?_, h4⟩
    rcases h3 with rfl | h3
    · rfl
    · cases pre with
      | nil => cases h3
      | cons q pre => rw [List.getLast?_cons_cons]; exact h3

/-- A piece without colon that is followed by the end or a colon is determined. -/
theorem piece_unique {a b x y : Str} (ha : (58 : UInt8) ∉ a) (hb : (58 : UInt8) ∉ b) (e : a ++ x = b ++ y)
    (hx : x = [] ∨ x.head? = some 58) (hy : y = [] ∨ y.head? = some 58) : a = b ∧ x = y := by
  have key : ∀ a x : Str, (58 : UInt8) ∉ a → (x = [] ∨ x.head? = some 58) → (a ++ x).takeWhile (· ≠ 58) = a := by
    intro a x ha hx
    rw [List.takeWhile_append_of_pos (by
      intro c hc; simp only [decide_eq_true_eq]; rintro rfl; exact ha hc)]
    rcases hx with rfl | hx
    · simp
    · cases x with
      | nil => cases hx
      | cons c cs => simp only [List.head?_cons, Option.some.injEq] at hx; subst hx; simp
  have h1 := key a x ha hx
  rw [e, key b y hb hy] at h1
  subst h1
  exact ⟨rfl, List.append_cancel_left e⟩

theorem strtok_spec (s : Str) :
    (strtok s = none → ∀ t, ¬ IsToken t s) ∧
    (∀ w rest, strtok s = some (w, rest) → rest.length < s.length ∧ ∀ t, IsToken t s ↔ t = w ∨ IsToken t rest) := by
  induction s with
  | nil => exact ⟨fun _ => not_token_nil, by intro w rest h; cases h⟩
  | cons c cs ih =>
    by_cases hc : c = 58
    · subst hc
      have e : strtok (58 :: cs) = strtok cs := by simp [strtok]
      rw [e]
      refine ⟨fun h t ht => ih.1 h t ((token_cons_sep t cs).1 ht), fun w rest h => ?_⟩
      obtain ⟨i1, i2⟩ := ih.2 w rest h
      exact ⟨by simp; omega, fun t => (token_cons_sep t cs).trans (i2 t)⟩
    · have e : strtok (c :: cs) = some ((c :: cs).takeWhile (· ≠ 58), ((c :: cs).dropWhile (· ≠ 58)).drop 1) := by
        simp [strtok, hc]
      rw [e]
      refine ⟨(by intro h; cases h), fun w rest h => ?_⟩
      simp only [Option.some.injEq, Prod.mk.injEq] at h
      obtain ⟨hw, hr⟩ := h
      have hsplit : c :: cs = w ++ (c :: cs).dropWhile (· ≠ 58) := by
        rw [← hw]; exact (List.takeWhile_append_dropWhile).symm
      have hwn : (58 : UInt8) ∉ w := by
        rw [← hw]
        intro h
        have := List.all_takeWhile (p := fun x : UInt8 => decide (x ≠ 58)) (l := c :: cs)
        rw [List.all_eq_true] at this
        exact absurd (this _ h) (by decide)
      have hwne : w ≠ [] := by rw [← hw]; simp [hc]
      have hd : (c :: cs).dropWhile (· ≠ 58) = [] ∨ (c :: cs).dropWhile (· ≠ 58) = 58 :: rest := by
        cases hdw : (c :: cs).dropWhile (· ≠ 58) with
        | nil => exact .inl rfl
        | cons x xs =>
          right
          have := List.head?_dropWhile_not (p := fun x : UInt8 => decide (x ≠ 58)) (l := c :: cs)
          rw [hdw] at this hr
          simp only [List.head?_cons] at this
          have hx : x = 58 := by simpa using this
          rw [hx, ← hr]; rfl
      have hd58 : (c :: cs).dropWhile (· ≠ 58) = [] ∨ ((c :: cs).dropWhile (· ≠ 58)).head? = some 58 := by
        rcases hd with h | h
        · exact .inl h
        · right; rw [h]; rfl
      generalize (c :: cs).dropWhile (· ≠ 58) = d at hsplit hd hd58 hr
      have hwl : 0 < w.length := List.length_pos_iff.2 hwne
      have hrl : rest.length ≤ d.length := by rw [← hr]; simp
      refine ⟨by rw [hsplit]; simp; omega, fun t => ?_⟩
      rw [hsplit]
      constructor
      · rintro ⟨h1, h2, pre, post, e, h3, h4⟩
        rcases h3 with rfl | h3
        · left
          simp only [List.nil_append] at e
          exact (piece_unique h2 hwn e.symm h4 hd58).1
        · right
          rw [List.append_assoc] at e
          rcases List.append_eq_append_iff.1 e with ⟨as, rfl, e2⟩ | ⟨bs, e1, e2⟩
          · -- w ++ d = w ++ as ++ …
            rcases hd with rfl | rfl
            · simp only [List.nil_eq, List.append_eq_nil_iff] at e2
              exact absurd e2.2.1 h1
            · cases as with
              | nil =>
                simp only [List.nil_append] at e2
                rw [List.append_nil] at h3
                have := List.mem_of_getLast? h3
                exact absurd this hwn
              | cons q as =>
                simp only [List.cons_append, List.cons.injEq] at e2
                refine ⟨h1, h2, as, post, by rw [e2.2, List.append_assoc], ?_, h4⟩
                cases as with
                | nil => exact .inl rfl
                | cons q' as =>
                  right
                  rw [last_append, List.getLast?_cons_cons] at h3
                  exact h3
          · have := List.mem_of_getLast? h3
            exact absurd (by rw [e1]; simp [this]) hwn
      · rintro (rfl | ⟨h1, h2, pre, post, rfl, h3, h4⟩)
        · exact ⟨hwne, hwn, [], d, by simp, .inl rfl, hd58⟩
        · rcases hd with rfl | rfl
          · simp only [List.drop_nil, List.nil_eq, List.append_eq_nil_iff] at hr
            exact absurd hr.1.2 h1
          · refine ⟨h1, h2, w ++ 58 :: pre, post, by simp, .inr ?_, h4⟩
            rw [last_append]
            rcases h3 with rfl | h3
            · rfl
            · cases pre with
              | nil => cases h3
              | cons q pre => rw [List.getLast?_cons_cons]; exact h3

theorem mem_tokens (n : Nat) (s : Str) (h : s.length ≤ n) (t : Str) : t ∈ tokens n s ↔ IsToken t s := by
  induction n generalizing s with
  | zero =>
    have : s = [] := List.length_eq_zero_iff.1 (by omega)
    subst this
    simp [tokens, not_token_nil]
  | succ n ih =>
    obtain ⟨h1, h2⟩ := strtok_spec s
    unfold tokens
    cases hs : strtok s with
    | none => simpa using h1 hs t
    | some x =>
      obtain ⟨w, rest⟩ := x
      obtain ⟨h3, h4⟩ := h2 w rest hs
      simp only [List.mem_cons]
      rw [h4, ih rest (by omega)]

theorem foldl_decVal (s : Str) (v : Nat) :
    s.foldl (fun v c => 10 * v + (c.toNat - 48)) v = v * 10 ^ s.length + decVal s := by
  induction s generalizing v with
  | nil => simp [decVal]
  | cons c cs ih =>
    rw [List.foldl_cons, ih, decVal, List.length_cons, Nat.pow_succ, Nat.add_mul]
    have : 10 * v * 10 ^ cs.length = v * (10 ^ cs.length * 10) := by
      rw [Nat.mul_comm (10 ^ cs.length) 10, ← Nat.mul_assoc, Nat.mul_comm v 10]
    omega

theorem idMatches_iff (fnmatch : Str → Str → Bool) (id : Nat) (hid : id < 2 ^ 32) (name : Option Str) (w : Str) :
    idMatches fnmatch id name w = true ↔ IsId w id ∨ ∃ n, name = some n ∧ fnmatch w n = true := by
  have hnum : (isNumber w && strtoul w == id) = true ↔ IsId w id := by
    unfold isNumber strtoul IsId
    rw [foldl_decVal]
    simp only [Bool.and_eq_true, bne_iff_ne, ne_eq, List.all_eq_true, decide_eq_true_eq, beq_iff_eq, Nat.zero_mul,
      Nat.zero_add]
    constructor
    · rintro ⟨⟨h1, h2⟩, h3⟩; exact ⟨h1, h2, by omega⟩
    · rintro ⟨h1, h2, h3⟩; exact ⟨⟨h1, h2⟩, by omega⟩
  unfold idMatches
  by_cases h : (isNumber w && strtoul w == id) = true
  · rw [if_pos h]; simp [hnum.1 h]
  · rw [if_neg h]
    have : ¬ IsId w id := fun c => h (hnum.2 c)
    cases name <;> simp [this]

theorem disableOn_eq (p : Str → Bool) (var : Option Str) (state : Err) :
    (∃ v, var = some v ∧ ∃ w, IsToken w v ∧ p w = true) ∧ disableOn p var state = EUSRBLOCKED
    ∨ ¬ (∃ v, var = some v ∧ ∃ w, IsToken w v ∧ p w = true) ∧ disableOn p var state = state := by
  cases var with
  | none => right; simp [disableOn]
  | some v =>
    unfold disableOn
    by_cases h : (tokens v.length v).any p = true
    · left
      obtain ⟨w, hw, hp⟩ := List.any_eq_true.1 h
      exact ⟨⟨v, rfl, w, (mem_tokens _ v (Nat.le_refl _) w).1 hw, hp⟩, by simp only [if_pos h]⟩
    · right
      refine ⟨?_, by simp only [if_neg h]⟩
      rintro ⟨v', hv, w, hw, hp⟩
      cases hv
      exact h (List.any_eq_true.2 ⟨w, (mem_tokens _ v (Nat.le_refl _) w).2 hw, hp⟩)

/-- What is listed in one of the variables. -/
def Listed (fnmatch : Str → Str → Bool) (env : Env) (path : Str) : Prop :=
  PathListed fnmatch env.onPath path ∨ IdListed fnmatch env.onUsers env.uid env.uname
    ∨ IdListed fnmatch env.onGroups env.gid env.gname

theorem start_eq (fnmatch : Str → Str → Bool) (env : Env) (path : Str) (hp : env.exe = some path)
    (hl : path.length < 4096) (hu : env.uid < 2 ^ 32) (hg : env.gid < 2 ^ 32) (state : Err) :
    (Listed fnmatch env path ∧ start fnmatch env state = some EUSRBLOCKED)
    ∨ (¬ Listed fnmatch env path ∧ start fnmatch env state = some state) := by
  have h1 := disableOn_eq (fun w => fnmatch w path) env.onPath state
  have e1 : onPath fnmatch env state = some (disableOn (fun w => fnmatch w path) env.onPath state) := by
    unfold onPath
    cases hv : env.onPath with
    | none => rfl
    | some v => simp only [hp, if_neg (Nat.not_le.2 (show path.length < pathMax from hl))]
  have h2 := fun state => disableOn_eq (idMatches fnmatch env.uid env.uname) env.onUsers state
  have h3 := fun state => disableOn_eq (idMatches fnmatch env.gid env.gname) env.onGroups state
  simp only [idMatches_iff fnmatch _ hu] at h2
  simp only [idMatches_iff fnmatch _ hg] at h3
  unfold start
  rw [e1]
  simp only
  rcases h1 with ⟨l1, q1⟩ | ⟨l1, q1⟩ <;> rw [q1]
  · left
    refine ⟨.inl l1, ?_⟩
    rcases h2 EUSRBLOCKED with ⟨_, q2⟩ | ⟨_, q2⟩ <;> rw [q2] <;>
      rcases h3 EUSRBLOCKED with ⟨_, q3⟩ | ⟨_, q3⟩ <;> rw [q3]
  · rcases h2 state with ⟨l2, q2⟩ | ⟨l2, q2⟩ <;> rw [q2]
    · left
      refine ⟨.inr (.inl l2), ?_⟩
      rcases h3 EUSRBLOCKED with ⟨_, q3⟩ | ⟨_, q3⟩ <;> rw [q3]
    · rcases h3 state with ⟨l3, q3⟩ | ⟨l3, q3⟩ <;> rw [q3]
      · exact .inl ⟨.inr (.inr l3), rfl⟩
      · right
        refine ⟨?_, rfl⟩
        rintro (h | h | h)
        · exact l1 h
        · exact l2 h
        · exact l3 h

/-- C48, for a process whose path can be read and is not too long (for others see below): blocked exactly when its path,
user or group matches a pattern of the respective variable, and can be livepatched otherwise; whatever the pattern matching is. -/
theorem C48_blocked_iff_listed_partial (fnmatch : Str → Str → Bool) (env : Env) (path : Str) (hp : env.exe = some path)
    (hl : path.length < 4096) (hu : env.uid < 2 ^ 32) (hg : env.gid < 2 ^ 32) :
    (start fnmatch env ENONE = some EUSRBLOCKED ↔ Listed fnmatch env path)
      ∧ (start fnmatch env ENONE = some ENONE ↔ ¬ Listed fnmatch env path) := by
  rcases start_eq fnmatch env path hp hl hu hg ENONE with ⟨h1, h2⟩ | ⟨h1, h2⟩ <;> rw [h2]
  · exact ⟨⟨fun _ => h1, fun _ => rfl⟩, ⟨fun h => absurd h (by decide), fun h => absurd h1 h⟩⟩
  · exact ⟨⟨fun h => absurd h (by decide), fun h => absurd h h1⟩, ⟨fun _ => h1, fun _ => rfl⟩⟩

/-- A path that cannot be read, or that is too long for the buffer, with patterns for the path in the environment: a byte
is written outside the buffer. -/
theorem C48_no_path_writes_outside (fnmatch : Str → Str → Bool) (env : Env) (v : Str) (hv : env.onPath = some v)
    (hp : env.exe = none ∨ ∃ p, env.exe = some p ∧ 4096 ≤ p.length) (state : Err) :
    start fnmatch env state = none := by
  unfold start onPath
  rw [hv]
  rcases hp with hp | ⟨p, hp, hl⟩
  · simp only [hp]
  · simp only [hp, if_pos (show pathMax ≤ p.length from hl)]

/-- User 1000 with `LIBPULP_DISABLE_ON_USERS=root::1000`. -/
example : start (fun a b => a == b) ⟨none, some [114, 111, 111, 116, 58, 58, 49, 48, 48, 48], none, some [47], 1000, none, 0,
    none⟩ ENONE = some EUSRBLOCKED := by decide +kernel
example : start (fun a b => a == b) ⟨none, some [114, 111, 111, 116, 58, 58, 49, 48, 48, 48], none, some [47], 100,
    some [98], 0, none⟩ ENONE = some ENONE := by decide +kernel
example : IsToken [49, 48] [97, 58, 58, 49, 48] := ⟨by decide, by decide, [97, 58, 58], [], rfl, .inr rfl, .inl rfl⟩

/-! ### C57 -/

/-- C57, when nothing is listed: an error found before is still there.  Missing, and false: see below. -/
theorem C57_start_error_kept_partial (fnmatch : Str → Str → Bool) (env : Env) (path : Str) (hp : env.exe = some path)
    (hl : path.length < 4096) (hu : env.uid < 2 ^ 32) (hg : env.gid < 2 ^ 32) (state : Err)
    (h : ¬ Listed fnmatch env path) : start fnmatch env state = some state := by
  rcases start_eq fnmatch env path hp hl hu hg state with ⟨h1, h2⟩ | ⟨_, h2⟩
  · exact absurd h1 h
  · exact h2

/-- The negation: if something is listed, any error found before is forgotten, and `ulp set_patchable enable` makes the
process one to be livepatched. -/
theorem C57_start_error_forgotten (fnmatch : Str → Str → Bool) (env : Env) (path : Str) (hp : env.exe = some path)
    (hl : path.length < 4096) (hu : env.uid < 2 ^ 32) (hg : env.gid < 2 ^ 32) (state : Err)
    (h : Listed fnmatch env path) (att : Nat → Att) (retries : Nat) (hr : 1 ≤ retries) (ha : (att 0).hijacked = true)
    (hb : (att 0).runErr = 0) :
    ∃ s, start fnmatch env state = some s ∧ (setPatchable att retries true s).1 = ENONE := by
  rcases start_eq fnmatch env path hp hl hu hg state with ⟨_, h2⟩ | ⟨h1, _⟩
  · refine ⟨_, h2, ?_⟩
    obtain ⟨k, rfl⟩ : ∃ k, retries = k + 1 := ⟨retries - 1, by omega⟩
    unfold setPatchable
    rw [if_pos (.inr ⟨rfl, rfl⟩)]
    have e : toggle EUSRBLOCKED = ENONE := by decide
    have e2 : ENONE ≠ EAGAIN := by decide
    have key : attempts att (k + 1) 0 EUSRBLOCKED none = (ENONE, some ENONE) := by
      unfold attempts
      simp only [ha, hb, true_or, if_true, e, Bool.true_eq_false, if_false, ne_eq, not_true_eq_false, e2,
        not_false_eq_true, ite_self]
    rw [key]
  · exact absurd h h1

/-! ### C52 -/

/-- The errors `run_and_redirect` can return (tools/ptrace.c:564-624; −1 is none of the others either). -/
def RunErr (e : Err) : Prop := e = 0 ∨ e = ETARGETHOOK ∨ e = EUNKNOWN ∨ e = ETIME ∨ e = 2 ^ 32 - 1

theorem attempts_state (env : Nat → Att) (he : ∀ i, RunErr (env i).runErr) (n i : Nat) (s : Err)
    (hs : s = ENONE ∨ s = EUSRBLOCKED) (ret : Option Err) :
    ((attempts env n i s ret).1 = s ∨ (attempts env n i s ret).1 = toggle s)
      ∧ (∀ r, (attempts env n i s ret).2 = some r → ret = some r ∨ r = (attempts env n i s ret).1 ∧ r = toggle s
        ∨ (r ≠ ENONE ∧ r ≠ EUSRBLOCKED)) := by
  cases n with
  | zero => exact ⟨.inl rfl, fun r h => .inl h⟩
  | succ n =>
    unfold attempts
    simp only
    by_cases h1 : (env i).hijacked = false
    · rw [if_pos h1]; exact ⟨.inl rfl, fun r h => .inl h⟩
    · rw [if_neg h1]
      have ht : toggle s = ENONE ∨ toggle s = EUSRBLOCKED := by rcases hs with rfl | rfl <;> decide
      -- the value of ret is never EAGAIN
      have hne : (if (env i).runErr ≠ 0 then (env i).runErr
          else (if (env i).runErr = 0 ∨ (env i).ran = true then toggle s else s)) ≠ EAGAIN := by
        by_cases h0 : (env i).runErr = 0
        · rw [if_neg (by simp [h0]), if_pos (.inl h0)]
          rcases ht with h | h <;> rw [h] <;> decide
        · rw [if_pos h0]
          rcases he i with h | h | h | h | h
          · exact absurd h h0
          all_goals rw [h]; decide
      have hfin : ∀ b : Prop, [Decidable b] →
          (if b then ((if (env i).runErr = 0 ∨ (env i).ran = true then toggle s else s),
            some (if (env i).runErr ≠ 0 then (env i).runErr
              else (if (env i).runErr = 0 ∨ (env i).ran = true then toggle s else s)))
           else ((if (env i).runErr = 0 ∨ (env i).ran = true then toggle s else s),
            some (if (env i).runErr ≠ 0 then (env i).runErr
              else (if (env i).runErr = 0 ∨ (env i).ran = true then toggle s else s))))
          = ((if (env i).runErr = 0 ∨ (env i).ran = true then toggle s else s),
            some (if (env i).runErr ≠ 0 then (env i).runErr
              else (if (env i).runErr = 0 ∨ (env i).ran = true then toggle s else s))) := by
        intro b _; exact ite_self _
      rw [if_pos hne, hfin]
      simp only [Option.some.injEq]
      constructor
      · by_cases h2 : (env i).runErr = 0 ∨ (env i).ran = true
        · rw [if_pos h2]; exact .inr rfl
        · rw [if_neg h2]; exact .inl rfl
      · rintro r rfl
        right
        by_cases h0 : (env i).runErr = 0
        · left; rw [if_neg (by simp [h0]), if_pos (.inl h0)]; exact ⟨rfl, rfl⟩
        · right
          rw [if_pos h0]
          rcases he i with h | h | h | h | h
          · exact absurd h h0
          all_goals rw [h]; decide

/-- What is asked for. -/
def wanted (enable : Bool) : Err := if enable then ENONE else EUSRBLOCKED

/-- C52, changes: whatever goes wrong, the only change to a process is from blocked to enabled when enabling and from
enabled to blocked when disabling, and the tool claims to have made it only if it did. -/
theorem C52_changes (env : Nat → Att) (he : ∀ i, RunErr (env i).runErr) (retries : Nat) (enable : Bool) (s : Err) :
    let r := setPatchable env retries enable s
    (r.1 = s ∨ s = wanted (!enable) ∧ r.1 = wanted enable) ∧ (r.2 = some .changed → r.1 = wanted enable) := by
  unfold setPatchable
  by_cases h : (s = ENONE ∧ enable = false) ∨ (s = EUSRBLOCKED ∧ enable = true)
  · rw [if_pos h]
    have hs : s = ENONE ∨ s = EUSRBLOCKED := by rcases h with ⟨h, _⟩ | ⟨h, _⟩ <;> simp [h]
    have hw : s = wanted (!enable) ∧ toggle s = wanted enable := by
      rcases h with ⟨rfl, rfl⟩ | ⟨rfl, rfl⟩ <;> decide
    obtain ⟨k1, k2⟩ := attempts_state env he retries 0 s hs none
    generalize attempts env retries 0 s none = x at k1 k2
    obtain ⟨s', ret⟩ := x
    simp only at k1 k2
    have first : s' = s ∨ s = wanted (!enable) ∧ s' = wanted enable := by
      rcases k1 with k1 | k1
      · exact .inl k1
      · exact .inr ⟨hw.1, by rw [k1]; exact hw.2⟩
    cases ret with
    | none => exact ⟨first, by simp⟩
    | some ret =>
      refine ⟨first, fun hc => ?_⟩
      simp only [Option.some.injEq] at hc
      by_cases hr : (ret = ENONE ∧ enable = true) ∨ (ret = EUSRBLOCKED ∧ enable = false)
      · rcases k2 ret rfl with c | ⟨c1, c2⟩ | ⟨c1, c2⟩
        · cases c
        · simp only; rw [← c1, c2]; exact hw.2
        · rcases hr with ⟨hr, _⟩ | ⟨hr, _⟩
          · exact absurd hr c1
          · exact absurd hr c2
      · rw [if_neg hr] at hc; cases hc
  · rw [if_neg h]
    exact ⟨.inl rfl, by simp⟩

/-- C52, internal errors: a process in any other state is left alone, and its state reported. -/
theorem C52_internal_error (env : Nat → Att) (retries : Nat) (enable : Bool) (s : Err) (h1 : s ≠ ENONE)
    (h2 : s ≠ EUSRBLOCKED) : setPatchable env retries enable s = (s, some (.refused s)) := by
  unfold setPatchable
  rw [if_neg (by rintro (⟨h, _⟩ | ⟨h, _⟩) <;> contradiction)]

/-- C52, effect: with hijacking and running the routine possible, the process is as asked for afterwards, whether it was
before or not. -/
theorem C52_effect (env : Nat → Att) (retries : Nat) (hr : 1 ≤ retries) (ha : (env 0).hijacked = true)
    (hb : (env 0).runErr = 0) (enable : Bool) (s : Err) (hs : s = ENONE ∨ s = EUSRBLOCKED) :
    (setPatchable env retries enable s).1 = wanted enable := by
  obtain ⟨k, rfl⟩ : ∃ k, retries = k + 1 := ⟨retries - 1, by omega⟩
  have key : ∀ s', (s' = ENONE ∨ s' = EUSRBLOCKED) → attempts env (k + 1) 0 s' none = (toggle s', some (toggle s')) := by
    intro s' hs'
    have hne : toggle s' ≠ EAGAIN := by rcases hs' with rfl | rfl <;> decide
    unfold attempts
    simp only [ha, hb, true_or, if_true, Bool.true_eq_false, if_false, ne_eq, not_true_eq_false, hne,
      not_false_eq_true, ite_self]
  unfold setPatchable
  by_cases h : (s = ENONE ∧ enable = false) ∨ (s = EUSRBLOCKED ∧ enable = true)
  · rw [if_pos h, key s hs]
    rcases h with ⟨rfl, rfl⟩ | ⟨rfl, rfl⟩ <;> decide
  · rw [if_neg h]
    rcases hs with rfl | rfl <;> cases enable <;> simp_all [wanted]

/-- C52, idempotent: once the process is as asked for, any further command for the same does nothing, even if nothing else
works. -/
theorem C52_idempotent (env env' : Nat → Att) (he : ∀ i, RunErr (env i).runErr) (retries retries' : Nat) (enable : Bool)
    (s : Err) (h : (setPatchable env retries enable s).2 = some .changed) :
    (setPatchable env' retries' enable (setPatchable env retries enable s).1).1
      = (setPatchable env retries enable s).1 := by
  have := (C52_changes env he retries enable s).2 h
  rw [this]
  unfold setPatchable
  cases enable <;> rfl

/-- When the process cannot be hijacked, the tool reports from a variable it has not assigned. -/
theorem C52_report_undefined (env : Nat → Att) (retries : Nat) (h : (env 0).hijacked = false) :
    (setPatchable env retries false ENONE) = (ENONE, none) := by
  unfold setPatchable
  rw [if_pos (.inl ⟨rfl, rfl⟩)]
  cases retries with
  | zero => rfl
  | succ n => simp [attempts, h]

/-- C52, internal errors with any number of tools at once, including those that looked before the error occurred: the
error stays. -/
theorem C52_internal_error_concurrent (s t : Sys) (h : Steps s t) (h1 : s.state ≠ ENONE) (h2 : s.state ≠ EUSRBLOCKED) :
    t.state = s.state := by
  induction h with
  | refl => rfl
  | tail _ hs ih =>
    cases hs with
    | check i en h => exact ih
    | run i en h =>
      simp only [toggle]
      rw [ih, if_neg h1, if_neg h2]

example : Steps ⟨EINSNQ, [(true, .checked)]⟩ ⟨EINSNQ, [(true, .done)]⟩ := .tail (.refl _) (.run _ 0 true rfl)

/-- Not covered by the above, because not so: two commands at the same time.  Both look at the state before either toggles
it, and the process that both were asked to block ends up enabled. -/
theorem C52_concurrent_disable_enables :
    Steps ⟨ENONE, [(false, .start), (false, .start)]⟩ ⟨ENONE, [(false, .done), (false, .done)]⟩ := by
  let s0 : Sys := ⟨ENONE, [(false, .start), (false, .start)]⟩
  let s1 : Sys := ⟨ENONE, [(false, .checked), (false, .start)]⟩
  let s2 : Sys := ⟨ENONE, [(false, .checked), (false, .checked)]⟩
  let s3 : Sys := ⟨EUSRBLOCKED, [(false, .done), (false, .checked)]⟩
  refine .tail (t := s3) (.tail (t := s2) (.tail (t := s1) (.tail (.refl s0) ?_) ?_) ?_) ?_
  · exact .check s0 0 false rfl
  · exact .check s1 1 false rfl
  · exact .run s2 0 false rfl
  · exact .run s3 1 false rfl

/-- The other way round: two commands to enable leave the process blocked. -/
theorem C52_concurrent_enable_disables :
    Steps ⟨EUSRBLOCKED, [(true, .start), (true, .start)]⟩ ⟨EUSRBLOCKED, [(true, .done), (true, .done)]⟩ := by
  let s0 : Sys := ⟨EUSRBLOCKED, [(true, .start), (true, .start)]⟩
  let s1 : Sys := ⟨EUSRBLOCKED, [(true, .checked), (true, .start)]⟩
  let s2 : Sys := ⟨EUSRBLOCKED, [(true, .checked), (true, .checked)]⟩
  let s3 : Sys := ⟨ENONE, [(true, .done), (true, .checked)]⟩
  refine .tail (t := s3) (.tail (t := s2) (.tail (t := s1) (.tail (.refl s0) ?_) ?_) ?_) ?_
  · exact .check s0 0 true rfl
  · exact .check s1 1 true rfl
  · exact .run s2 0 true rfl
  · exact .run s3 1 true rfl

/-- C52, one command at a time: with every other command finished before this one looks, the process is left as this one
asks for, whatever was done to it before, unless an internal error bars it.  (Commands at the same time: see the two theorems
above.) -/
theorem C52_one_at_a_time (s t : Sys) (h : Steps s t) (i : Nat) (en : Bool)
    (hi : s.tools[i]? = some (en, .start)) (ho : ∀ j c p, j ≠ i → s.tools[j]? = some (c, p) → p = .done)
    (hs : s.state = ENONE ∨ s.state = EUSRBLOCKED) (hd : t.tools[i]? = some (en, .done)) :
    t.state = if en then ENONE else EUSRBLOCKED := by
  have key : (∀ j c p, j ≠ i → t.tools[j]? = some (c, p) → p = .done)
      ∧ ((t.tools[i]? = some (en, .start) ∧ t.state = s.state)
        ∨ (t.tools[i]? = some (en, .checked) ∧ t.state = if en then EUSRBLOCKED else ENONE)
        ∨ (t.tools[i]? = some (en, .done) ∧ t.state = if en then ENONE else EUSRBLOCKED)) := by
    clear hd
    induction h with
    | refl => exact ⟨ho, .inl ⟨hi, rfl⟩⟩
    | tail hp st ih =>
      obtain ⟨h1, h2⟩ := ih
      cases st with
      | check k c hk =>
        have hki : k = i := Decidable.byContradiction fun hne => absurd (h1 k c _ hne hk) (by simp)
        subst hki
        rcases h2 with ⟨h2, h3⟩ | ⟨h2, h3⟩ | ⟨h2, h3⟩
        · rw [h2] at hk
          obtain ⟨rfl⟩ : en = c := by simpa using hk
          have hlt := (List.getElem?_eq_some_iff.1 h2).1
          refine ⟨fun j c p hj => ?_, ?_⟩
          · simp only [List.getElem?_set_ne (Ne.symm hj)]
            exact h1 j c p hj
          · simp only [List.getElem?_set_self hlt, h3]
            rcases hs with hs | hs <;> cases en <;> simp [hs, ENONE, EUSRBLOCKED]
        · rw [h2] at hk; simp at hk
        · rw [h2] at hk; simp at hk
      | run k c hk =>
        have hki : k = i := Decidable.byContradiction fun hne => absurd (h1 k c _ hne hk) (by simp)
        subst hki
        rcases h2 with ⟨h2, h3⟩ | ⟨h2, h3⟩ | ⟨h2, h3⟩
        · rw [h2] at hk; simp at hk
        · rw [h2] at hk
          obtain ⟨rfl⟩ : en = c := by simpa using hk
          have hlt := (List.getElem?_eq_some_iff.1 h2).1
          refine ⟨fun j c p hj => ?_, .inr (.inr ⟨?_, ?_⟩)⟩
          · simp only [List.getElem?_set_ne (Ne.symm hj)]
            exact h1 j c p hj
          · simp only [List.getElem?_set_self hlt]
          · cases en <;> simp [h3, toggle, ENONE, EUSRBLOCKED]
        · rw [h2] at hk; simp at hk
  rcases key.2 with ⟨h2, -⟩ | ⟨h2, -⟩ | ⟨-, h3⟩
  · rw [h2] at hd; simp at hd
  · rw [h2] at hd; simp at hd
  · exact h3

/-- A command to block and, once it is done, one to enable. -/
example (t : Sys) (h : Steps ⟨EUSRBLOCKED, [(false, .done), (true, .start)]⟩ t) (hd : t.tools[1]? = some (true, .done)) :
    t.state = ENONE :=
  C52_one_at_a_time _ t h 1 true rfl (by
    intro j c p hj hp
    match j with
    | 0 => grind
    | 1 => exact absurd rfl hj
    | j + 2 => simp at hp) (.inr rfl) hd

example : setPatchable (fun _ => ⟨true, 0, true, true⟩) 3 false ENONE = (EUSRBLOCKED, some .changed) := by decide +kernel
example : setPatchable (fun _ => ⟨true, 0, true, true⟩) 3 false EUSRBLOCKED
    = (EUSRBLOCKED, some (.refused EUSRBLOCKED)) := by decide +kernel
example : setPatchable (fun _ => ⟨true, ETIME, false, true⟩) 3 true EUSRBLOCKED
    = (EUSRBLOCKED, some (.unable ETIME)) := by decide +kernel

/-! ### Further concrete cases -/

/-- ULP_DISABLE_ON_USERS is "root::1000" and the process runs as 1000, as "/p". -/
def demoEnv (uid : Nat) (onPath : Option Str) : Env :=
  ⟨onPath, some [114, 111, 111, 116, 58, 58, 49, 48, 48, 48], none, some [47, 112], uid, none, 0, none⟩

theorem demo_listed : Listed (fun a b => a == b) (demoEnv 1000 none) [47, 112] :=
  ((C48_blocked_iff_listed_partial _ (demoEnv 1000 none) [47, 112] rfl (by decide) (by decide) (by decide)).1).1 (by decide +kernel)

theorem demo_not_listed : ¬ Listed (fun a b => a == b) (demoEnv 100 none) [47, 112] :=
  ((C48_blocked_iff_listed_partial _ (demoEnv 100 none) [47, 112] rfl (by decide) (by decide) (by decide)).2).1 (by decide +kernel)

example := C48_no_path_writes_outside (fun a b => a == b) { demoEnv 100 (some [47, 112]) with exe := none } [47, 112] rfl (.inl rfl) ENONE
example := C57_start_error_kept_partial (fun a b => a == b) (demoEnv 100 none) [47, 112] rfl (by decide) (by decide) (by decide) ENOLIBC demo_not_listed
example := C57_start_error_forgotten (fun a b => a == b) (demoEnv 1000 none) [47, 112] rfl (by decide) (by decide) (by decide) ENOLIBC demo_listed
  (fun _ => ⟨true, 0, true, true⟩) 3 (by decide) rfl rfl
/-- The first attempt times out, the second one works. -/
example := C52_changes (fun i => ⟨true, if i = 0 then ETIME else 0, i != 0, true⟩)
  (by intro i; by_cases h : i = 0 <;> simp [RunErr, h]) 3 false ENONE
example := C52_internal_error (fun _ => ⟨true, 0, true, true⟩) 3 true EINSNQ (by decide) (by decide)
example := C52_internal_error_concurrent ⟨EINSNQ, [(true, .checked)]⟩ ⟨EINSNQ, [(true, .done)]⟩ (.tail (.refl _) (.run _ 0 true rfl))
  (by decide) (by decide)
example := C52_effect (fun _ => ⟨true, 0, true, false⟩) 3 (by decide) rfl rfl true EUSRBLOCKED (.inr rfl)
example := C52_idempotent (fun _ => ⟨true, 0, true, true⟩) (fun _ => ⟨true, 0, true, true⟩) (fun _ => .inl rfl) 3 1 false ENONE (by decide +kernel)
example := C52_report_undefined (fun _ => ⟨false, 0, false, false⟩) 3 rfl

end Verif.ErrState
