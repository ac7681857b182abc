import Verif.Startup.Lemmas
import Verif.Startup.Spec

/-! C118 (requests during the start), C119 (interposed functions), C120 (early calls). -/

namespace Verif.Startup

open Spec

theorem not_running {s : St} (h : Settled s) : ¬ Running s := fun ⟨t, pc, ok, c, h'⟩ => h.2 t pc ok c h'

/-- The main thread alone, up to statement `k` of `__ulp_asunsafe_begin`. -/
theorem alone {e : Env} (hF : Full e) {n : Nat} (hn : 0 < n) (tg : Bool) {s₀ : St} (h1 : s₀.stage = .early) (h2 : s₀.stack 0 = [])
    (h3 : ∀ f, s₀.real f = false) (h4 : s₀.err = ENONE) (h5 : s₀.locks = false) (h6 : s₀.looked = false) (k : Nat) (hk : k ≤ 28) :
    ∃ s, Steps e n tg s₀ s ∧ s.stack = upd s₀.stack 0 [.begin k true none] ∧ s.load = true ∧ s.err = ENONE ∧ s.flag = s₀.flag ∧
      s.locks = decide (26 < k) ∧ s.stage = .called ∧ s.looked = false ∧ ∀ f, at_ f < k → s.real f = e.found f := by
  induction k with
  | zero =>
    let s1 : St := { s₀ with load := true, stage := .loaded }
    refine ⟨{ s1 with stage := .called, stack := upd s1.stack 0 (call s1 none) },
      .tail (.tail .refl (.load s₀ h1 h2)) (.ctor s1 rfl h2), ?_, rfl, h4, rfl, by simpa using h5, rfl, h6, by simp⟩
    show upd s₀.stack 0 (if s₀.real .malloc then back none else [.begin 0 true none]) = _
    rw [h3]; rfl
  | succ k ih =>
    obtain ⟨s, a, b, c, d, f, g, i, l, j⟩ := ih (by omega)
    have hs : s.stack 0 = [.begin k true none] := by rw [b]; simp [upd]
    obtain ⟨op, hop⟩ : ∃ op, code[k]? = some op := ⟨code[k]'(by show k < 29; omega), by simp⟩
    have hst : Steps e n tg s₀ (exec e s 0 k true none [] false op) := .tail a (.exec s 0 k true none [] false op hn hs hop)
    have hup : ∀ l, upd s.stack 0 l = upd s₀.stack 0 l := by
      intro l; rw [b]; funext u; unfold upd; split <;> rfl
    have hj : ∀ f, at_ f < k + 1 → op ≠ .lookup f → s.real f = e.found f := by
      intro f hf hne
      apply j
      by_cases hx : at_ f = k
      · exfalso
        have : code[k]? = some (.lookup f) := by rw [← hx]; cases f <;> rfl
        rw [hop] at this
        exact hne (Option.some.inj this)
      · omega
    cases op with
    | lookup x =>
      have hkx := code_lookup hop
      have := at_lt_stop x
      refine ⟨_, hst, hup _, c, d, f, ?_, i, l, ?_⟩
      · show s.locks = _
        rw [g]; congr 1; simp only [eq_iff_iff]; omega
      · intro y hy
        show set s.real x (e.found x) y = _
        by_cases hxy : y = x
        · rw [hxy]; exact set_self e _ _
        · exact set_found e _ _ _ (hj y hy (by simp; exact fun h => hxy h.symm))
    | check x =>
      have hkx := code_check hop
      have := check_lt_stop hkx.2
      have hr : s.real x = true := by rw [j x (by rw [hkx.1]; exact at_lt x)]; exact hF x hkx.2
      simp only [exec, hr, if_true] at hst
      refine ⟨_, hst, hup _, c, d, f, ?_, i, l, fun y hy => hj y hy (by simp)⟩
      show s.locks = _
      rw [g]; congr 1; simp only [eq_iff_iff]; omega
    | stop =>
      have hkx := code_stop hop
      refine ⟨_, hst, hup _, c, d, f, ?_, i, l, fun y hy => hj y hy (by simp)⟩
      show s.locks = _
      rw [g]; congr 1; simp only [eq_iff_iff]; omega
    | locks =>
      have hkx := code_locks hop
      refine ⟨_, hst, hup _, c, d, f, ?_, i, l, fun y hy => hj y hy (by simp)⟩
      show true = _
      subst hkx; rfl
    | assert =>
      have hkx := code_assert hop
      refine ⟨_, hst, hup _, c, d, f, ?_, i, l, fun y hy => hj y hy (by simp)⟩
      show s.locks = _
      rw [g]; congr 1; simp only [eq_iff_iff]; omega
    | disable =>
      have := code_disable hop
      omega

/-! ### C118: requests during the start -/

/-- **C118** (missing: the time before the constructors are done) Once the start is over no request to apply or revert
crashes the process, and if the user has disabled live patching for it, all are refused until someone enables it. -/
theorem C118_requests_partial {e : Env} {n : Nat} {tg : Bool} {s : St} (h : Steps e n tg start s) (hs : Settled s) (held : Bool) :
    gate s held ≠ .crash ∧ (e.blocked = true → tg = false → gate s held = .refused) := by
  have hl : s.load = true := (known_steps h).load (by rw [hs.1]; simp)
  by_cases hF : Full e
  · have hf := fine_steps hF h
    have hm := (hf.called hs.1).resolve_left (not_running hs)
    obtain ⟨h1, h2⟩ := (hf.known hm).resolve_left (not_running hs)
    refine ⟨?_, fun hb ht => ?_⟩
    · simp only [gate, hl, h1]
      grind
    · have := hf.blocked ht hb h2
      simp [gate, hl, this]
  · obtain ⟨g, hg⟩ := Classical.not_forall.1 hF
    rw [Classical.not_imp] at hg
    have hp := poor_steps hg.1 (by simpa using hg.2) h
    have hb := (hp.called hs.1).resolve_left (not_running hs)
    have he : s.err ≠ ENONE := by rcases hb with h | h <;> rw [h] <;> decide
    simp [gate, hl, he]

/-- The negation, first part: `load_state`, by which the tools see that libpulp is ready, is set by the first of the
two constructors, the locks by the second.  Wherever the main thread is in between, a request kills the process. -/
theorem C118_early_request_crashes {e : Env} (he : AllExist e) {n : Nat} (hn : 0 < n) (tg : Bool) (k : Nat) (hk : k ≤ 26) :
    ∃ s, Steps e n tg start s ∧ s.stack 0 = [.begin k true none] ∧ ∀ held, gate s held = .crash := by
  obtain ⟨s, a, b, c, d, f, g, i, l, j⟩ := alone (fun f _ => he f) hn tg (s₀ := start) rfl rfl (fun _ => rfl) rfl rfl rfl k (by omega)
  refine ⟨s, a, by rw [b]; simp [upd], fun held => ?_⟩
  have : ¬ 26 < k := by omega
  simp [gate, c, d, g, this]

/-- The negation, second part: even if the user has disabled live patching, a request is granted while the process
has not looked at the variables. -/
theorem C118_early_request_granted {e : Env} (he : AllExist e) {n : Nat} (hn : 0 < n) (tg : Bool) :
    ∃ s, Steps e n tg start s ∧ s.looked = false ∧ gate s false = .granted := by
  obtain ⟨s, a, b, c, d, f, g, i, l, j⟩ := alone (fun f _ => he f) hn tg (s₀ := start) rfl rfl (fun _ => rfl) rfl rfl rfl 28 (by omega)
  exact ⟨s, a, l, by simp [gate, c, d, g, f, start]⟩

/-- What the error code says if a function is missing. -/
structure Named (e : Env) (s : St) : Prop where
  locks : s.locks = false
  dl : s.err = ENOLIBDL → ∃ f ∈ dlFunctions, e.found f = false
  c : s.err = ENOLIBC → ∃ f, f ∉ dlFunctions ∧ e.found f = false

theorem named_step {e : Env} {g : Fn} {n : Nat} {tg : Bool} {s s' : St} (h : Step e n tg s s') (hv : Inv e s) (hp : Poor g s) (hi : Named e s) :
    Named e s' := by
  cases h with
  | load | ctor | known | unknown | loader | enter | leave | done => exact ⟨hi.locks, hi.dl, hi.c⟩
  | exec t pc ok caller r odd op h1 h2 h3 =>
    have hpc := hp.ok t pc ok caller (by rw [h2]; simp)
    cases op with
    | lookup f => exact ⟨hi.locks, hi.dl, hi.c⟩
    | check f =>
      unfold exec
      simp only
      by_cases hr : s.real f = true
      · rw [if_pos hr]; exact ⟨hi.locks, hi.dl, hi.c⟩
      · rw [if_neg hr]
        have hc := (code_check h3).1
        have hf := (hv.frames t (.begin pc ok caller) (by rw [h2]; simp)).1 f (by rw [hc]; exact at_lt f)
        rw [show s.real f = false by simpa using hr] at hf
        have h5 : (missing f = ENOLIBDL → f ∈ dlFunctions) ∧ (missing f = ENOLIBC → f ∉ dlFunctions) := by
          cases f <;> decide
        exact ⟨hi.locks, fun he => ⟨f, h5.1 he, hf.symm⟩, fun he => ⟨f, h5.2 he, hf.symm⟩⟩
    | stop => exact ⟨hi.locks, hi.dl, hi.c⟩
    | locks => have := code_locks h3; omega
    | assert => have := code_assert h3; omega
    | disable => have := code_disable h3; omega
  | served x hg =>
    exfalso
    unfold gate at hg
    simp only [hi.locks] at hg
    revert hg
    simp only [Bool.not_false, if_true]
    split
    · simp
    · split <;> simp
  | toggle ht hl =>
    refine ⟨hi.locks, ?_, ?_⟩ <;> intro he <;> simp only at he
    · split at he
      · exact absurd he (by decide)
      · split at he
        · exact absurd he (by decide)
        · exact hi.dl he
    · split at he
      · exact absurd he (by decide)
      · split at he
        · exact absurd he (by decide)
        · exact hi.c he

/-- **C118**: when a function that libpulp needs is missing, requests are refused once the start is over, and the error
that says why names the library that lacks one. -/
theorem C118_missing_named {e : Env} {g : Fn} (hg : g ≠ .valloc) (hm : e.found g = false) {n : Nat} {tg : Bool} {s : St} (h : Steps e n tg start s)
    (hs : Settled s) : (s.err = ENOLIBDL ∧ ∃ f ∈ dlFunctions, e.found f = false) ∨
      (s.err = ENOLIBC ∧ ∃ f, f ∉ dlFunctions ∧ e.found f = false) := by
  have hn : Named e s := by
    clear hs
    induction h with
    | refl => exact ⟨rfl, fun h => absurd h (by decide), fun h => absurd h (by decide)⟩
    | tail h1 h2 ih => exact named_step h2 (inv_steps h1) (poor_steps hg hm h1) ih
  rcases ((poor_steps hg hm h).called hs.1).resolve_left (not_running hs) with he | he
  · exact .inl ⟨he, hn.dl he⟩
  · exact .inr ⟨he, hn.c he⟩

/-! ### C119: interposed functions -/

/-- **C119** (missing: functions of the loader that no other library has) At any time of the start, however many threads
call whichever of the interposed functions, none jumps to address 0. -/
theorem C119_reaches_function_partial {e : Env} (he : ∀ f, f.loader = true → e.found f = true) {n : Nat} {tg : Bool} {s : St} (h : Steps e n tg start s)
    (t : Nat) : ¬ JumpsToNull s t := by
  rintro ⟨f, r, h1, h2⟩
  have hv := inv_steps h
  obtain ⟨h3, h4⟩ := hv.frames t (.entering f) (by rw [h1]; simp)
  cases hl : f.loader with
  | true => rw [h2, he f hl] at h3; simp at h3
  | false => rw [h2] at h4; simp at h4; rw [hl] at h4; simp at h4

/-- The negation for the others: libpulp finds out that there is no such function, records an error, and still calls it
when the program does. -/
theorem C119_missing_function {e : Env} (hm : e.found .malloc = true) {f : Fn} (hl : f.loader = true) (hf : e.found f = false) {n : Nat} {tg : Bool}
    {s : St} (h : Steps e n tg start s) (hs : Settled s) {t : Nat} (ht : t < n) (h0 : s.stack t = []) :
    ∃ s', Step e n tg s s' ∧ JumpsToNull s' t := by
  have hk := ((known_steps h).known (.inr hs.1)).resolve_left (not_running hs)
  have hrm : s.real .malloc = true := by rw [hk, hm]
  have hrf : s.real f = false := by rw [hk, hf]
  refine ⟨_, .loader s t f ht hl (by rw [h0]; simp), f, [], ?_, hrf⟩
  simp [upd, hrf, call, hrm, back, h0]

/-! ### C120: early calls -/

/-- **C120** (missing: calls made before libpulp knew the functions) When a request is granted, every thread inside an
interposed function has been there since before libpulp knew where it is. -/
theorem C120_nobody_inside_partial {e : Env} {n : Nat} (hn : 0 < n) {tg : Bool} {s : St} (h : Steps e n tg start s) (held : Bool)
    (hg : gate s held = .granted) (t : Nat) (hi : Inside s t) : InsideSinceEarly s t := by
  obtain ⟨f, c, hf⟩ := hi
  cases c with
  | false => exact ⟨f, hf⟩
  | true =>
    exfalso
    have hc := counts_steps hn h
    have h0 : s.flag = 0 := by
      unfold gate at hg
      split at hg
      · simp at hg
      · split at hg
        · simp at hg
        · split at hg
          · simp at hg
          · split at hg
            · simp at hg
            · rename_i h; simp at h; exact h.2
    have ht : t < n := Classical.byContradiction fun h => by
      rw [hc.others t (by omega)] at hf; simp at hf
    have h1 := total_mem (st := s.stack) ht
    have h2 : 0 < counted (s.stack t) := List.countP_pos_iff.2 ⟨_, hf, rfl⟩
    have h3 := hc.flag
    omega

/-- Once the start is over there are no new such calls: if none is left, there never will be, and a granted request finds no
thread inside an interposed function. -/
theorem C120_later_partial {e : Env} (he : AllExist e) {n : Nat} (hn : 0 < n) {tg : Bool} {s : St} (h : Steps e n tg start s) (hs : Settled s)
    (h0 : ∀ t, ¬ InsideSinceEarly s t) {s' : St} (h' : Steps e n tg s s') (held : Bool) (hg : gate s' held = .granted) (t : Nat) : ¬ Inside s' t := by
  have hk := ((known_steps h).known (.inr hs.1)).resolve_left (not_running hs)
  have hall : Steps e n tg start s' := by
    clear hg
    induction h' with
    | refl => exact h
    | tail _ h2 ih => exact .tail ih h2
  have key : (∀ f, s'.real f = true) ∧ ∀ t, ¬ InsideSinceEarly s' t := by
    clear hg hall
    induction h' with
    | refl => exact ⟨fun f => by rw [hk, he], h0⟩
    | tail _ h2 ih =>
      rename_i u v _
      obtain ⟨hr, hu⟩ := ih
      have hold : ∀ {t f}, Frame.inside f false ∉ u.stack t := fun {t f} hf => hu t ⟨f, hf⟩
      have hnew : ∀ {t : Nat} {l : List Frame} {st : Nat → List Frame}, (∀ f, Frame.inside f false ∈ l → Frame.inside f false ∈ u.stack t) →
          st = upd u.stack t l → ∀ w, ¬ ∃ f, Frame.inside f false ∈ st w := by
        rintro t l st hl rfl w ⟨f, hf⟩
        rcases mem_upd hf with ⟨-, hf⟩ | hf
        · exact hold (hl f hf)
        · exact hold hf
      have hcall : ∀ {c f}, Frame.inside f false ∉ call u c := by
        intro c f
        unfold call
        rw [if_pos (hr _)]
        cases c <;> simp [back]
      cases h2 with
      | load h1 h2 => exact ⟨hr, hu⟩
      | ctor h1 h2 => exact ⟨hr, hnew (fun f hf => absurd hf hcall) rfl⟩
      | known t f h1 h2 h3 h4 => exact ⟨hr, hnew (t := t) (fun f hf => by simpa using hf) rfl⟩
      | unknown t f h1 h2 h3 h4 => rw [hr] at h3; simp at h3
      | loader t f h1 h2 h3 => exact ⟨hr, hnew (t := t) (fun g hf => by rw [if_pos (hr f)] at hf; simpa using hf) rfl⟩
      | enter t f r h1 h2 h3 => exact ⟨hr, hnew (t := t) (fun g hf => by rw [h2]; simpa using hf) rfl⟩
      | leave t f c r h1 h2 => exact ⟨hr, hnew (t := t) (fun g hf => by rw [h2]; simp [hf]) rfl⟩
      | exec t pc ok c r odd op h1 h2 h3 =>
        have hb : ∀ {pc' ok' g}, Frame.inside g false ∈ Frame.begin pc' ok' c :: r → Frame.inside g false ∈ u.stack t := by
          intro pc' ok' g hf; rw [h2]; simpa using hf
        cases op with
        | lookup f =>
          refine ⟨fun g => ?_, hnew (t := t) (fun g hf => hb hf) rfl⟩
          show set u.real f (e.found f) g = true
          unfold set; split
          · exact he f
          · exact hr g
        | check f =>
          have hx : exec e u t pc ok c r odd (.check f) = { u with stack := upd u.stack t (.begin (pc + 1) ok c :: r) } := by
            simp only [exec]; rw [if_pos (hr f)]
          rw [hx]
          exact ⟨hr, hnew (t := t) (fun g hf => hb hf) rfl⟩
        | stop =>
          refine ⟨hr, hnew (t := t) (l := if ok then .begin (pc + 1) ok c :: r else back c ++ r) (fun g hf => ?_) rfl⟩
          split at hf
          · exact hb hf
          · rcases List.mem_append.1 hf with hf | hf
            · cases c <;> simp [back] at hf
            · rw [h2]; simp [hf]
        | locks => exact ⟨hr, hnew (t := t) (fun g hf => hb hf) rfl⟩
        | assert => exact ⟨hr, hnew (t := t) (fun g hf => hb hf) rfl⟩
        | disable => exact ⟨hr, hnew (t := t) (fun g hf => hb hf) rfl⟩
      | done t pc ok c r h1 h2 h3 =>
        refine ⟨hr, hnew (t := t) (fun g hf => ?_) rfl⟩
        rcases List.mem_append.1 hf with hf | hf
        · cases c <;> simp [back] at hf
        · rw [h2]; simp [hf]
      | served x h1 => exact ⟨hr, hu⟩
      | toggle h1 h2 => exact ⟨hr, hu⟩
  exact fun hi => key.2 t (C120_nobody_inside_partial hn hall held hg t hi)

/-- The negation: a thread that a library started before libpulp was initialised is inside `malloc`, and a request is
granted. -/
theorem C120_early_call {e : Env} (he : AllExist e) (hb : e.blocked = false) {n : Nat} (hn : 1 < n) (tg : Bool) :
    ∃ s, Steps e n tg start s ∧ Settled s ∧ Frame.inside .malloc false ∈ s.stack 1 ∧ gate s false = .granted := by
  let s₀ : St := { start with stack := upd start.stack 1 (.inside .malloc false :: start.stack 1) }
  have h0 : Step e n tg start s₀ := .unknown start 1 .malloc hn rfl rfl (by simp [start])
  obtain ⟨s, a, b, c, d, f, g, i, l, j⟩ := alone (fun f _ => he f) (show 0 < n by omega) tg (s₀ := s₀) rfl rfl (fun _ => rfl) rfl rfl rfl 28 (by omega)
  have hs : s.stack 0 = [.begin 28 true none] := by rw [b]; simp [upd]
  let s1 := exec e s 0 28 true none [] false .disable
  have h1 : Step e n tg s s1 := .exec s 0 28 true none [] false .disable (by omega) hs rfl
  have h2 : Step e n tg s1 { s1 with stack := upd s1.stack 0 (back none ++ []) } :=
    .done s1 0 29 true none [] (by omega) (by simp [s1, exec, upd]) rfl
  have hjoin : ∀ {x}, Steps e n tg s₀ x → Steps e n tg start x := by
    intro x hx
    induction hx with
    | refl => exact .tail .refl h0
    | tail _ h2 ih => exact .tail ih h2
  refine ⟨_, .tail (.tail (hjoin a) h1) h2, ⟨i, ?_⟩, ?_, ?_⟩
  · intro t pc ok c' hf
    simp only [s1, exec, b, s₀, start, upd, back] at hf
    grind
  · simp [s1, exec, b, s₀, start, upd]
  · simp [gate, s1, exec, c, d, g, f, hb, s₀, start]

/-! ### Examples -/

def demoEnv : Env := ⟨fun _ => true, true⟩

/-- A process that has disabled live patching starts; then a request is refused. -/
example : ∃ s, Steps demoEnv 1 false start s ∧ Settled s ∧ gate s false = .refused := by
  obtain ⟨s, a, b, c, d, f, g, i, l, j⟩ :=
    alone (e := demoEnv) (fun f _ => rfl) (n := 1) (by omega) false (s₀ := start) rfl rfl (fun _ => rfl) rfl rfl rfl 28 (by omega)
  have hs : s.stack 0 = [.begin 28 true none] := by rw [b]; simp [upd]
  let s1 := exec demoEnv s 0 28 true none [] false .disable
  have h1 : Step demoEnv 1 false s s1 := .exec s 0 28 true none [] false .disable (by omega) hs rfl
  have h2 : Step demoEnv 1 false s1 { s1 with stack := upd s1.stack 0 (back none ++ []) } :=
    .done s1 0 29 true none [] (by omega) (by simp [s1, exec, upd]) rfl
  have h3 : Steps demoEnv 1 false start { s1 with stack := upd s1.stack 0 (back none ++ []) } := .tail (.tail a h1) h2
  have h4 : Settled { s1 with stack := upd s1.stack 0 (back none ++ []) } := by
    refine ⟨i, ?_⟩
    intro t pc ok c' hf
    simp only [s1, exec, b, start, upd, back] at hf
    grind
  exact ⟨_, h3, h4, (C118_requests_partial h3 h4 false).2 rfl rfl⟩

/-- In the middle of `__ulp_asunsafe_begin` it crashes the process instead. -/
example : ∃ s, Steps demoEnv 1 false start s ∧ s.stack 0 = [.begin 12 true none] ∧ gate s false = .crash := by
  obtain ⟨s, h1, h2, h3⟩ := C118_early_request_crashes (e := demoEnv) (fun _ => rfl) (n := 1) (by omega) false 12 (by omega)
  exact ⟨s, h1, h2, h3 false⟩

/-- A library that is initialised before libpulp calls `dladdr`: that runs `__ulp_asunsafe_begin`, and nobody jumps to
address 0. -/
example : ∃ s, Steps demoEnv 1 false start s ∧ s.stack 0 = [.begin 0 true (some .dladdr)] ∧ ¬ JumpsToNull s 0 := by
  have h : Steps demoEnv 1 false start { start with stack := upd start.stack 0 ((if start.real .dladdr then [.entering .dladdr] else call start (some .dladdr)) ++ start.stack 0) } :=
    .tail .refl (.loader start 0 .dladdr (by omega) rfl (by simp [start]))
  exact ⟨_, h, by simp [upd, start, call], C119_reaches_function_partial (fun _ _ => rfl) h 0⟩

example := C118_early_request_granted (e := demoEnv) (fun _ => rfl) (n := 2) (by decide) true
example := C120_early_call (e := ⟨fun _ => true, false⟩) (fun _ => rfl) rfl (n := 2) (by decide) true

/-- In the run where a second thread is inside `malloc` since before the start of the library, requests are granted, and that is the only way. -/
example : ∃ s, Steps ⟨fun _ => true, false⟩ 2 true start s ∧ InsideSinceEarly s 1 := by
  obtain ⟨s, h, -, h3, h4⟩ := C120_early_call (e := ⟨fun _ => true, false⟩) (fun _ => rfl) rfl (n := 2) (by decide) true
  exact ⟨s, h, C120_nobody_inside_partial (by decide) h false h4 1 ⟨_, _, h3⟩⟩

/-- The main thread continues with `__ulp_asunsafe_begin`. -/
def goOn (e : Env) (s : St) : St :=
  match s.stack 0 with
  | .begin pc ok caller :: r =>
    match code[pc]? with
    | some op => exec e s 0 pc ok caller r false op
    | none => { s with stack := upd s.stack 0 (back caller ++ r) }
  | _ => s

theorem goOn_steps {e : Env} {n : Nat} (hn : 0 < n) {tg : Bool} {s₀ s : St} (h : Steps e n tg s₀ s) :
    Steps e n tg s₀ (goOn e s) ∧ ∀ t, t ≠ 0 → (goOn e s).stack t = s.stack t := by
  unfold goOn
  split
  · next pc ok caller r hs =>
    split
    · next op ho =>
      refine ⟨.tail h (.exec s 0 pc ok caller r false op hn hs ho), fun t ht => ?_⟩
      cases op <;> simp only [exec] <;> repeat' split
      all_goals simp [upd, ht]
    · next ho => exact ⟨.tail h (.done s 0 pc ok caller r hn hs ho), fun t ht => by simp [upd, ht]⟩
  · exact ⟨h, fun _ _ => rfl⟩

/-- A library without `dladdr`: the start ends with an error, and a call of that function goes to address 0. -/
def exMissing : Env := ⟨fun f => f != .dladdr, false⟩

theorem ex_missing : ∃ s, Steps exMissing 2 false start s ∧ Settled s ∧ s.stack 1 = [] := by
  let s1 : St := { start with load := true, stage := .loaded }
  let s2 : St := { s1 with stage := .called, stack := upd s1.stack 0 (call s1 none) }
  have h0 : Steps exMissing 2 false start s2 := .tail (.tail .refl (.load start rfl rfl)) (.ctor s1 rfl rfl)
  have all : ∀ k, Steps exMissing 2 false start (Nat.repeat (goOn exMissing) k s2) ∧ ∀ t, t ≠ 0 → (Nat.repeat (goOn exMissing) k s2).stack t = [] := by
    intro k
    induction k with
    | zero => exact ⟨h0, fun t ht => by show upd _ 0 _ t = []; simp [upd, ht, s1, start]⟩
    | succ k ih =>
      have := goOn_steps (n := 2) (by decide) ih.1
      exact ⟨this.1, fun t ht => (this.2 t ht).trans (ih.2 t ht)⟩
  have h30 := all 30
  have e0 : (Nat.repeat (goOn exMissing) 30 s2).stack 0 = [] := by decide +kernel
  have e1 : (Nat.repeat (goOn exMissing) 30 s2).stage = .called := by decide +kernel
  refine ⟨_, h30.1, ⟨e1, fun t pc ok c hm => ?_⟩, h30.2 1 (by decide)⟩
  by_cases ht : t = 0
  · subst ht; rw [e0] at hm; cases hm
  · rw [h30.2 t ht] at hm; cases hm

example : ∃ s, Steps exMissing 2 false start s ∧ Settled s ∧ s.err = ENOLIBDL := by
  obtain ⟨s, h, hs, -⟩ := ex_missing
  rcases C118_missing_named (e := exMissing) (g := .dladdr) (by decide) rfl h hs with ⟨he, -⟩ | ⟨-, f, hf, hn⟩
  · exact ⟨s, h, hs, he⟩
  · exact absurd hn (by revert hf; cases f <;> decide)

example : ∃ s s', Steps exMissing 2 false start s ∧ Step exMissing 2 false s s' ∧ JumpsToNull s' 1 := by
  obtain ⟨s, h, hs, h1⟩ := ex_missing
  obtain ⟨s', h2, h3⟩ := C119_missing_function (e := exMissing) rfl (f := .dladdr) rfl rfl h hs (t := 1) (by decide) h1
  exact ⟨s, s', h, h2, h3⟩

example {s : St} (h : Steps demoEnv 2 true start s) (hs : Settled s) (h0 : ∀ t, s.stack t = []) {s' : St} (h' : Steps demoEnv 2 true s s')
    (hg : gate s' false = .granted) : ¬ Inside s' 1 :=
  C120_later_partial (fun _ => rfl) (by decide) h hs (fun t ⟨f, hf⟩ => by rw [h0 t] at hf; cases hf) h' false hg 1

end Verif.Startup
