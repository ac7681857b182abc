import Verif.Startup.Model

/-! Invariants of the start. -/

namespace Verif.Startup

/-- All functions whose absence is an error are found. -/
def Full (e : Env) : Prop := ∀ f, f ≠ .valloc → e.found f = true

/-- Some thread is in `__ulp_asunsafe_begin`. -/
def Running (s : St) : Prop := ∃ t pc ok c, Frame.begin pc ok c ∈ s.stack t

theorem code_lt {pc : Nat} {op : Op} (h : code[pc]? = some op) : pc < 29 := by
  have := (List.getElem?_eq_some_iff.1 h).1
  exact this

theorem code_none {pc : Nat} (h : code[pc]? = none) : 29 ≤ pc := by
  have := List.getElem?_eq_none_iff.1 h
  exact this

theorem code_stop {pc : Nat} (h : code[pc]? = some .stop) : pc = 25 := by
  have h1 : ∀ pc < 29, code[pc]? = some .stop → pc = 25 := by decide
  exact h1 pc (code_lt h) h

theorem code_locks {pc : Nat} (h : code[pc]? = some .locks) : pc = 26 := by
  have h1 : ∀ pc < 29, code[pc]? = some .locks → pc = 26 := by decide
  exact h1 pc (code_lt h) h

theorem code_assert {pc : Nat} (h : code[pc]? = some .assert) : pc = 27 := by
  have h1 : ∀ pc < 29, code[pc]? = some .assert → pc = 27 := by decide
  exact h1 pc (code_lt h) h

theorem code_disable {pc : Nat} (h : code[pc]? = some .disable) : pc = 28 := by
  have h1 : ∀ pc < 29, code[pc]? = some .disable → pc = 28 := by decide
  exact h1 pc (code_lt h) h

/-- Where a function is looked up. -/
def at_ : Fn → Nat
  | .dlclose => 0 | .dladdr => 1 | .dladdr1 => 2 | .dlinfo => 3 | .free => 8 | .malloc => 9 | .calloc => 10 | .realloc => 11
  | .valloc => 12 | .pvalloc => 13 | .memalign => 14 | .alignedAlloc => 15 | .posixMemalign => 16

theorem code_lookup {pc : Nat} {f : Fn} (h : code[pc]? = some (.lookup f)) : pc = at_ f := by
  have h1 : ∀ pc < 29, code[pc]? = some (.lookup f) → pc = at_ f := by cases f <;> decide
  exact h1 pc (code_lt h) h

/-- Where it is checked; `valloc` is not. -/
def checkAt : Fn → Nat
  | .dlclose => 4 | .dladdr => 5 | .dladdr1 => 6 | .dlinfo => 7 | .free => 17 | .malloc => 18 | .calloc => 19 | .realloc => 20
  | .valloc => 29 | .pvalloc => 21 | .memalign => 22 | .alignedAlloc => 23 | .posixMemalign => 24

theorem code_check {pc : Nat} {f : Fn} (h : code[pc]? = some (.check f)) : pc = checkAt f ∧ f ≠ .valloc := by
  have h1 : ∀ pc < 29, code[pc]? = some (.check f) → pc = checkAt f ∧ f ≠ .valloc := by cases f <;> decide
  exact h1 pc (code_lt h) h

theorem at_lt (f : Fn) : at_ f < checkAt f := by cases f <;> decide
theorem at_lt_stop (f : Fn) : at_ f < 25 := by cases f <;> decide
theorem check_lt_stop {f : Fn} (h : f ≠ .valloc) : checkAt f < 25 := by cases f <;> first | decide | exact absurd rfl h
theorem loader_first {f : Fn} (h : f.loader = true) : at_ f < 9 := by cases f <;> first | decide | simp [Fn.loader] at h

theorem set_found (e : Env) (real : Fn → Bool) (f g : Fn) (h : real g = e.found g) : set real f (e.found f) g = e.found g := by
  unfold set; split <;> simp_all

theorem set_self (e : Env) (real : Fn → Bool) (f : Fn) : set real f (e.found f) f = e.found f := by
  unfold set; simp

theorem mem_upd {fr : Frame} {st : Nat → List Frame} {t u : Nat} {l : List Frame} (h : fr ∈ upd st t l u) :
    (u = t ∧ fr ∈ l) ∨ fr ∈ st u := by
  unfold upd at h; split at h <;> simp_all

/-- What is known of a frame. -/
def FrameOk (e : Env) (real : Fn → Bool) : Frame → Prop
  | .begin pc _ c => (∀ f, at_ f < pc → real f = e.found f) ∧ ∀ f, c = some f → f.loader = true
  | .entering f => real f = e.found f ∧ (f.loader = false → real f = true)
  | .inside _ _ => True

structure Inv (e : Env) (s : St) : Prop where
  frames : ∀ t, ∀ fr ∈ s.stack t, FrameOk e s.real fr
  sound : ∀ f, s.real f = true → e.found f = true
  order : s.real .malloc = true → ∀ f, f.loader = true → s.real f = e.found f

theorem inv_start (e : Env) : Inv e start := ⟨by simp [start], by simp [start], by simp [start]⟩

theorem frameOk_set {e : Env} {real : Fn → Bool} (hs : ∀ f, real f = true → e.found f = true) (f : Fn) {fr : Frame} (h : FrameOk e real fr) :
    FrameOk e (set real f (e.found f)) fr := by
  cases fr with
  | begin pc ok c => exact ⟨fun g hg => set_found e _ _ _ (h.1 g hg), h.2⟩
  | entering g =>
    refine ⟨set_found e _ _ _ h.1, fun hl => ?_⟩
    rw [set_found e _ _ _ h.1]
    exact hs g (h.2 hl)
  | inside g c => trivial

theorem call_ok {e : Env} {s : St} (hi : Inv e s) {c : Option Fn} (hc : ∀ f, c = some f → f.loader = true) :
    ∀ fr ∈ call s c, FrameOk e s.real fr := by
  intro fr h
  unfold call at h
  split at h
  · cases c with
    | none => simp [back] at h
    | some f =>
      simp only [back, List.mem_singleton] at h
      subst h
      exact ⟨hi.order (by assumption) f (hc f rfl), by rw [hc f rfl]; simp⟩
  · simp only [List.mem_singleton] at h
    subst h
    exact ⟨by simp, hc⟩

theorem inv_of {e : Env} {s : St} {t : Nat} {l : List Frame} (hi : Inv e s) (hl : ∀ fr ∈ l, FrameOk e s.real fr) :
    ∀ u, ∀ fr ∈ upd s.stack t l u, FrameOk e s.real fr := by
  intro u fr h
  rcases mem_upd h with ⟨-, h⟩ | h
  · exact hl fr h
  · exact hi.frames u fr h

theorem back_ok {e : Env} {s : St} {pc : Nat} {ok : Bool} {c : Option Fn} (h : FrameOk e s.real (.begin pc ok c)) (hp : 25 ≤ pc) :
    ∀ fr ∈ back c, FrameOk e s.real fr := by
  intro fr hf
  cases c with
  | none => simp [back] at hf
  | some f =>
    simp only [back, List.mem_singleton] at hf
    subst hf
    exact ⟨h.1 f (Nat.lt_of_lt_of_le (at_lt_stop f) hp), by rw [h.2 f rfl]; simp⟩

theorem inv_step {e : Env} {n : Nat} {tg : Bool} {s s' : St} (h : Step e n tg s s') (hi : Inv e s) : Inv e s' := by
  cases h with
  | load h1 h2 => exact ⟨hi.frames, hi.sound, hi.order⟩
  | ctor h1 h2 => exact ⟨inv_of hi (call_ok hi (by simp)), hi.sound, hi.order⟩
  | known t f h1 h2 h3 h4 =>
    refine ⟨inv_of hi ?_, hi.sound, hi.order⟩
    intro fr hf
    rcases List.mem_cons.1 hf with rfl | hf
    · exact ⟨by rw [h3, hi.sound f h3], fun _ => h3⟩
    · exact hi.frames t fr hf
  | unknown t f h1 h2 h3 h4 =>
    refine ⟨inv_of hi ?_, hi.sound, hi.order⟩
    intro fr hf
    rcases List.mem_cons.1 hf with rfl | hf
    · trivial
    · exact hi.frames t fr hf
  | loader t f h1 h2 h3 =>
    refine ⟨inv_of hi ?_, hi.sound, hi.order⟩
    intro fr hf
    rcases List.mem_append.1 hf with hf | hf
    · split at hf
      · rename_i hr
        simp only [List.mem_singleton] at hf
        subst hf
        exact ⟨by rw [hr, hi.sound f hr], fun _ => hr⟩
      · exact call_ok hi (by rintro g hg; cases hg; exact h2) fr hf
    · exact hi.frames t fr hf
  | enter t f r h1 h2 h3 =>
    refine ⟨inv_of hi ?_, hi.sound, hi.order⟩
    intro fr hf
    rcases List.mem_cons.1 hf with rfl | hf
    · trivial
    · exact hi.frames t fr (by rw [h2]; simp [hf])
  | leave t f c r h1 h2 =>
    refine ⟨inv_of hi ?_, hi.sound, hi.order⟩
    intro fr hf
    exact hi.frames t fr (by rw [h2]; simp [hf])
  | exec t pc ok c r odd op h1 h2 h3 =>
    have hb : FrameOk e s.real (.begin pc ok c) := hi.frames t _ (by rw [h2]; simp)
    have hr : ∀ fr ∈ r, FrameOk e s.real fr := fun fr hf => hi.frames t fr (by rw [h2]; simp [hf])
    -- the next statement, if no function was looked up
    have next : (∀ f, op ≠ .lookup f) → ∀ ok', ∀ fr ∈ Frame.begin (pc + 1) ok' c :: r, FrameOk e s.real fr := by
      intro hop ok' fr hf
      rcases List.mem_cons.1 hf with rfl | hf
      · refine ⟨fun f hf => ?_, hb.2⟩
        by_cases hlt : at_ f < pc
        · exact hb.1 f hlt
        · have : at_ f = pc := by omega
          have h4 : code[pc]? = some (.lookup f) := by rw [← this]; cases f <;> rfl
          rw [h3] at h4
          exact absurd (Option.some.inj h4) (hop f)
      · exact hr fr hf
    cases op with
    | lookup f =>
      refine ⟨?_, ?_, ?_⟩
      · show ∀ u, ∀ fr ∈ upd s.stack t (.begin (pc + 1) ok c :: r) u, FrameOk e (set s.real f (e.found f)) fr
        intro u fr h
        rcases mem_upd h with ⟨-, h⟩ | h
        · rcases List.mem_cons.1 h with rfl | h
          · refine ⟨fun g hg => ?_, hb.2⟩
            by_cases hlt : at_ g < pc
            · exact set_found e _ _ _ (hb.1 g hlt)
            · have h5 : at_ g = at_ f := by have := code_lookup h3; omega
              have : g = f := by revert h5; cases g <;> cases f <;> decide
              rw [this]; exact set_self e _ _
          · exact frameOk_set hi.sound f (hr fr h)
        · exact frameOk_set hi.sound f (hi.frames u fr h)
      · show ∀ g, set s.real f (e.found f) g = true → _
        intro g hg
        unfold set at hg
        split at hg
        · rename_i e'; rw [e']; exact hg
        · exact hi.sound g hg
      · show set s.real f (e.found f) .malloc = true → ∀ g, g.loader = true → set s.real f (e.found f) g = e.found g
        intro hm g hg
        by_cases hf : f = .malloc
        · subst hf
          apply set_found
          apply hb.1
          have := code_lookup h3
          rw [this]
          exact loader_first hg
        · apply set_found
          apply hi.order _ g hg
          unfold set at hm
          rwa [if_neg (fun e => hf e.symm)] at hm
    | check f =>
      simp only [exec]
      split
      · exact ⟨inv_of hi (next (by simp) ok), hi.sound, hi.order⟩
      · exact ⟨inv_of hi (next (by simp) false), hi.sound, hi.order⟩
    | stop =>
      refine ⟨inv_of hi ?_, hi.sound, hi.order⟩
      split
      · exact next (by simp) ok
      · intro fr hf
        rcases List.mem_append.1 hf with hf | hf
        · exact back_ok hb (Nat.le_of_eq (code_stop h3).symm) fr hf
        · exact hr fr hf
    | locks => exact ⟨inv_of hi (next (by simp) ok), hi.sound, hi.order⟩
    | assert => exact ⟨inv_of hi (next (by simp) ok), hi.sound, hi.order⟩
    | disable => exact ⟨inv_of hi (next (by simp) ok), hi.sound, hi.order⟩
  | done t pc ok c r h1 h2 h3 =>
    have hb : FrameOk e s.real (.begin pc ok c) := hi.frames t _ (by rw [h2]; simp)
    refine ⟨inv_of hi ?_, hi.sound, hi.order⟩
    intro fr hf
    rcases List.mem_append.1 hf with hf | hf
    · exact back_ok hb (Nat.le_trans (by decide) (code_none h3)) fr hf
    · exact hi.frames t fr (by rw [h2]; simp [hf])
  | served x h1 => exact ⟨hi.frames, hi.sound, hi.order⟩
  | toggle h1 h2 => exact ⟨hi.frames, hi.sound, hi.order⟩

theorem inv_steps {e : Env} {n : Nat} {tg : Bool} {s : St} (h : Steps e n tg start s) : Inv e s := by
  induction h with
  | refl => exact inv_start e
  | tail _ h ih => exact inv_step h ih

/-- The list has a frame of `__ulp_asunsafe_begin`. -/
def Has (l : List Frame) : Prop := ∃ pc ok c, Frame.begin pc ok c ∈ l

theorem running_iff (s : St) : Running s ↔ ∃ t, Has (s.stack t) := Iff.rfl

theorem running_keep {s s' : St} {t : Nat} {l : List Frame} (h : Running s) (hs : s'.stack = upd s.stack t l)
    (hk : Has (s.stack t) → Has l) : Running s' := by
  obtain ⟨u, hu⟩ := h
  rw [running_iff]
  by_cases e : u = t
  · subst e
    refine ⟨u, ?_⟩
    rw [hs]; unfold upd; rw [if_pos rfl]
    exact hk hu
  · refine ⟨u, ?_⟩
    rw [hs]; unfold upd; rw [if_neg e]
    exact hu

theorem running_new {s' : St} {t : Nat} {st : Nat → List Frame} {l : List Frame} (hs : s'.stack = upd st t l) (hk : Has l) : Running s' := by
  rw [running_iff]
  refine ⟨t, ?_⟩
  rw [hs]; unfold upd; rw [if_pos rfl]
  exact hk

theorem has_cons {fr : Frame} {l : List Frame} (h : Has l) : Has (fr :: l) := by
  obtain ⟨pc, ok, c, h⟩ := h; exact ⟨pc, ok, c, List.mem_cons_of_mem _ h⟩

theorem has_append {k l : List Frame} (h : Has l) : Has (k ++ l) := by
  obtain ⟨pc, ok, c, h⟩ := h; exact ⟨pc, ok, c, List.mem_append_right _ h⟩

theorem has_begin (pc : Nat) (ok : Bool) (c : Option Fn) (l : List Frame) : Has (.begin pc ok c :: l) := ⟨pc, ok, c, by simp⟩

theorem has_tail {fr : Frame} {l : List Frame} (hf : ∀ pc ok c, fr ≠ .begin pc ok c) (h : Has (fr :: l)) : Has l := by
  obtain ⟨pc, ok, c, h⟩ := h
  rcases List.mem_cons.1 h with h | h
  · exact absurd h.symm (hf pc ok c)
  · exact ⟨pc, ok, c, h⟩

/-! ### If everything is found -/

structure Fine (e : Env) (tg : Bool) (s : St) : Prop where
  ok : ∀ t pc ok c, Frame.begin pc ok c ∈ s.stack t → ok = true ∧ (26 < pc → s.locks = true) ∧ (28 < pc → s.looked = true)
  known : s.real .malloc = true → Running s ∨ (s.locks = true ∧ s.looked = true)
  called : s.stage = .called → Running s ∨ s.real .malloc = true
  blocked : tg = false → e.blocked = true → s.looked = true → s.err ≠ ENONE

theorem fine_start (e : Env) (tg : Bool) : Fine e tg start := ⟨by simp [start], by simp [start], by simp [start], by simp [start]⟩

/-- A step in which a thread's calls change, but nothing else that matters. -/
theorem fine_of {e : Env} {tg : Bool} {s s' : St} {t : Nat} {l : List Frame} (hi : Fine e tg s) (hs : s'.stack = upd s.stack t l)
    (hr : s'.real = s.real) (hl : s.locks = true → s'.locks = true) (hk : s.looked = true → s'.looked = true)
    (hg : s'.stage = s.stage)
    (hb : tg = false → e.blocked = true → s'.looked = true → s'.err ≠ ENONE)
    (hf : ∀ pc ok c, Frame.begin pc ok c ∈ l → ok = true ∧ (26 < pc → s'.locks = true) ∧ (28 < pc → s'.looked = true))
    (hh : Has (s.stack t) → Has l ∨ (s'.locks = true ∧ s'.looked = true ∧ s.real .malloc = true)) : Fine e tg s' := by
  have hrun : Running s → Running s' ∨ (s'.locks = true ∧ s'.looked = true ∧ s.real .malloc = true) := by
    intro h
    by_cases hx : Has (s.stack t) ∧ ¬ Has l
    · exact .inr ((hh hx.1).resolve_left hx.2)
    · exact .inl (running_keep h hs (fun h1 => Classical.byContradiction fun h2 => hx ⟨h1, h2⟩))
  refine ⟨?_, ?_, ?_, hb⟩
  · intro u pc ok c h
    rw [hs] at h
    rcases mem_upd h with ⟨-, h⟩ | h
    · exact hf pc ok c h
    · obtain ⟨a, b, d⟩ := hi.ok u pc ok c h
      exact ⟨a, fun x => hl (b x), fun x => hk (d x)⟩
  · intro h
    rw [hr] at h
    rcases hi.known h with h | h
    · exact (hrun h).imp id (fun x => ⟨x.1, x.2.1⟩)
    · exact .inr ⟨hl h.1, hk h.2⟩
  · intro h
    rw [hg] at h
    rcases hi.called h with h | h
    · exact (hrun h).imp id (fun x => by rw [hr]; exact x.2.2)
    · right; rw [hr]; exact h

theorem call_has {s : St} {c : Option Fn} : Has (call s c) ∨ s.real .malloc = true := by
  unfold call
  split
  · right; assumption
  · left; exact has_begin _ _ _ _

theorem call_new {s : St} {c : Option Fn} {pc : Nat} {ok : Bool} {d : Option Fn} (h : Frame.begin pc ok d ∈ call s c) : pc = 0 ∧ ok = true := by
  unfold call at h
  split at h
  · cases c <;> simp [back] at h
  · simp at h; exact ⟨h.1, h.2.1⟩

theorem back_none {c : Option Fn} {pc : Nat} {ok : Bool} {d : Option Fn} : Frame.begin pc ok d ∉ back c := by
  cases c <;> simp [back]

theorem fine_step {e : Env} (hF : Full e) {n : Nat} {tg : Bool} {s s' : St} (h : Step e n tg s s') (hv : Inv e s) (hi : Fine e tg s) :
    Fine e tg s' := by
  cases h with
  | load h1 h2 => exact ⟨hi.ok, hi.known, by simp, hi.blocked⟩
  | ctor h1 h2 =>
    refine ⟨?_, ?_, ?_, hi.blocked⟩
    · intro u pc ok c h
      rcases mem_upd h with ⟨-, h⟩ | h
      · obtain ⟨rfl, rfl⟩ := call_new h
        simp
      · exact hi.ok u pc ok c h
    · intro h
      rcases hi.known h with h' | h'
      · exact .inl (running_keep h' rfl (by rw [h2]; rintro ⟨_, _, _, h⟩; simp at h))
      · exact .inr h'
    · intro _
      exact call_has.imp (running_new rfl) id
  | known t f h1 h2 h3 h4 =>
    refine fine_of (s' := { s with stack := upd s.stack t (.entering f :: s.stack t) }) hi rfl rfl id id rfl hi.blocked ?_ (fun h => .inl (has_cons h))
    intro pc ok c h
    exact hi.ok t pc ok c (by simpa using h)
  | unknown t f h1 h2 h3 h4 =>
    refine fine_of (s' := { s with stack := upd s.stack t (.inside f false :: s.stack t) }) hi rfl rfl id id rfl hi.blocked ?_ (fun h => .inl (has_cons h))
    intro pc ok c h
    exact hi.ok t pc ok c (by simpa using h)
  | loader t f h1 h2 h3 =>
    refine fine_of (s' := { s with stack := upd s.stack t ((if s.real f then [.entering f] else call s (some f)) ++ s.stack t) }) hi rfl rfl id id rfl
      hi.blocked ?_ (fun h => .inl (has_append h))
    intro pc ok c h
    rcases List.mem_append.1 h with h | h
    · split at h
      · simp at h
      · obtain ⟨rfl, rfl⟩ := call_new h
        simp
    · exact hi.ok t pc ok c h
  | enter t f r h1 h2 h3 =>
    refine fine_of (s' := { s with flag := s.flag + 1, stack := upd s.stack t (.inside f true :: r) }) hi rfl rfl id id rfl hi.blocked ?_ ?_
    · intro pc ok c h
      exact hi.ok t pc ok c (by rw [h2]; simpa using h)
    · rw [h2]
      intro h
      exact .inl (has_cons (has_tail (by simp) h))
  | leave t f c r h1 h2 =>
    refine fine_of (s' := { s with flag := if c then s.flag - 1 else s.flag, stack := upd s.stack t r }) hi rfl rfl id id rfl hi.blocked ?_ ?_
    · intro pc ok c h
      exact hi.ok t pc ok c (by rw [h2]; simp [h])
    · rw [h2]
      intro h
      exact .inl (has_tail (by simp) h)
  | exec t pc ok c r odd op h1 h2 h3 =>
    have hb := hi.ok t pc ok c (by rw [h2]; simp)
    have hbv := hv.frames t (.begin pc ok c) (by rw [h2]; simp)
    have hr : ∀ pc ok c, Frame.begin pc ok c ∈ r → _ := fun pc ok c hf => hi.ok t pc ok c (by rw [h2]; simp [hf])
    cases op with
    | lookup f =>
      have hlt : pc < 25 := by rw [code_lookup h3]; exact at_lt_stop f
      refine ⟨?_, ?_, ?_, hi.blocked⟩
      · intro u pc' ok' c' h
        rcases mem_upd h with ⟨-, h⟩ | h
        · rcases List.mem_cons.1 h with h | h
          · cases h
            exact ⟨hb.1, fun h => by omega, fun h => by omega⟩
          · exact hr _ _ _ h
        · exact hi.ok u _ _ _ h
      · intro _; exact .inl (running_new rfl (has_begin _ _ _ _))
      · intro _; exact .inl (running_new rfl (has_begin _ _ _ _))
    | check f =>
      have hlt : pc < 25 := by rw [(code_check h3).1]; exact check_lt_stop (code_check h3).2
      have hrf : s.real f = true := by
        rw [hbv.1 f (by rw [(code_check h3).1]; exact at_lt f)]
        exact hF f (code_check h3).2
      simp only [exec, hrf, if_true]
      refine fine_of (s' := { s with stack := upd s.stack t (.begin (pc + 1) ok c :: r) }) hi rfl rfl id id rfl hi.blocked ?_ (fun _ => .inl (has_begin _ _ _ _))
      intro pc' ok' c' h
      rcases List.mem_cons.1 h with h | h
      · cases h
        exact ⟨hb.1, fun h => by omega, fun h => by omega⟩
      · exact hr _ _ _ h
    | stop =>
      have hlt := code_stop h3
      have hok := hb.1
      subst hok
      simp only [exec, if_true]
      refine fine_of (s' := { s with stack := upd s.stack t (.begin (pc + 1) true c :: r) }) hi rfl rfl id id rfl hi.blocked ?_ (fun _ => .inl (has_begin _ _ _ _))
      intro pc' ok' c' h
      rcases List.mem_cons.1 h with h | h
      · cases h
        exact ⟨rfl, fun h => by omega, fun h => by omega⟩
      · exact hr _ _ _ h
    | locks =>
      have hlt := code_locks h3
      refine fine_of (s' := { s with locks := true, stack := upd s.stack t (.begin (pc + 1) ok c :: r) }) hi rfl rfl (fun _ => rfl) id rfl hi.blocked ?_
        (fun _ => .inl (has_begin _ _ _ _))
      intro pc' ok' c' h
      rcases List.mem_cons.1 h with h | h
      · cases h
        exact ⟨hb.1, fun _ => rfl, fun h => by omega⟩
      · exact ⟨(hr _ _ _ h).1, fun _ => rfl, (hr _ _ _ h).2.2⟩
    | assert =>
      have hlt := code_assert h3
      refine fine_of (s' := { s with err := if odd then EUNKNOWN else s.err, stack := upd s.stack t (.begin (pc + 1) ok c :: r) }) hi rfl rfl id id rfl ?_ ?_
        (fun _ => .inl (has_begin _ _ _ _))
      · intro a b d
        show (if odd then EUNKNOWN else s.err) ≠ ENONE
        split
        · decide
        · exact hi.blocked a b d
      · intro pc' ok' c' h
        rcases List.mem_cons.1 h with h | h
        · cases h
          exact ⟨hb.1, fun _ => hb.2.1 (by omega), fun h => by omega⟩
        · exact hr _ _ _ h
    | disable =>
      have hlt := code_disable h3
      refine fine_of (s' := { s with err := if e.blocked then EUSRBLOCKED else s.err, looked := true, stack := upd s.stack t (.begin (pc + 1) ok c :: r) }) hi
        rfl rfl id (fun _ => rfl) rfl ?_ ?_ (fun _ => .inl (has_begin _ _ _ _))
      · intro a b d
        show (if e.blocked then EUSRBLOCKED else s.err) ≠ ENONE
        rw [if_pos b]; decide
      · intro pc' ok' c' h
        rcases List.mem_cons.1 h with h | h
        · cases h
          exact ⟨hb.1, fun _ => hb.2.1 (by omega), fun _ => rfl⟩
        · exact ⟨(hr _ _ _ h).1, (hr _ _ _ h).2.1, fun _ => rfl⟩
  | done t pc ok c r h1 h2 h3 =>
    have hb := hi.ok t pc ok c (by rw [h2]; simp)
    have hbv := hv.frames t (.begin pc ok c) (by rw [h2]; simp)
    have := code_none h3
    refine fine_of (s' := { s with stack := upd s.stack t (back c ++ r) }) hi rfl rfl id id rfl hi.blocked ?_ ?_
    · intro pc' ok' c' h
      rcases List.mem_append.1 h with h | h
      · exact absurd h back_none
      · exact hi.ok t pc' ok' c' (by rw [h2]; simp [h])
    · intro _
      right
      refine ⟨hb.2.1 (by omega), hb.2.2 (by omega), ?_⟩
      rw [hbv.1 .malloc (by have := at_lt_stop .malloc; omega)]
      exact hF _ (by decide)
  | served x h1 =>
    refine ⟨hi.ok, hi.known, hi.called, ?_⟩
    intro a b d
    exfalso
    have := hi.blocked a b d
    unfold gate at h1
    simp [this] at h1
    split at h1 <;> simp at h1
  | toggle h1 h2 =>
    refine ⟨hi.ok, hi.known, hi.called, ?_⟩
    intro a
    rw [a] at h1; simp at h1

/-! ### If something is missing -/

/-- An error that lasts. -/
def Bad (x : Err) : Prop := x = ENOLIBDL ∨ x = ENOLIBC

theorem bad_missing (f : Fn) : Bad (missing f) := by unfold missing; split <;> simp [Bad]

structure Poor (g : Fn) (s : St) : Prop where
  ok : ∀ t pc ok c, Frame.begin pc ok c ∈ s.stack t → pc ≤ 25 ∧ (ok = false → Bad s.err) ∧ (checkAt g < pc → ok = false)
  known : s.real .malloc = true → Running s ∨ Bad s.err
  called : s.stage = .called → Running s ∨ Bad s.err

theorem poor_start (g : Fn) : Poor g start := ⟨by simp [start], by simp [start], by simp [start]⟩

theorem poor_of {g : Fn} {s s' : St} {t : Nat} {l : List Frame} (hi : Poor g s) (hs : s'.stack = upd s.stack t l)
    (hr : s'.real = s.real) (he : Bad s.err → Bad s'.err) (hg : s'.stage = s.stage)
    (hf : ∀ pc ok c, Frame.begin pc ok c ∈ l → pc ≤ 25 ∧ (ok = false → Bad s'.err) ∧ (checkAt g < pc → ok = false))
    (hh : Has (s.stack t) → Has l ∨ Bad s'.err) : Poor g s' := by
  have hrun : Running s → Running s' ∨ Bad s'.err := by
    intro h
    by_cases hx : Has (s.stack t) ∧ ¬ Has l
    · exact .inr ((hh hx.1).resolve_left hx.2)
    · exact .inl (running_keep h hs (fun h1 => Classical.byContradiction fun h2 => hx ⟨h1, h2⟩))
  refine ⟨?_, ?_, ?_⟩
  · intro u pc ok c h
    rw [hs] at h
    rcases mem_upd h with ⟨-, h⟩ | h
    · exact hf pc ok c h
    · obtain ⟨a, b, d⟩ := hi.ok u pc ok c h
      exact ⟨a, fun x => he (b x), d⟩
  · intro h
    rw [hr] at h
    rcases hi.known h with h | h
    · exact hrun h
    · exact .inr (he h)
  · intro h
    rw [hg] at h
    rcases hi.called h with h | h
    · exact hrun h
    · exact .inr (he h)

theorem poor_step {e : Env} {g : Fn} (hg : g ≠ .valloc) (hm : e.found g = false) {n : Nat} {tg : Bool} {s s' : St} (h : Step e n tg s s')
    (hv : Inv e s) (hi : Poor g s) : Poor g s' := by
  cases h with
  | load h1 h2 => exact ⟨hi.ok, hi.known, by simp⟩
  | ctor h1 h2 =>
    have hk : Running s → Running { s with stage := .called, stack := upd s.stack 0 (call s none) } :=
      fun h' => running_keep h' rfl (by rw [h2]; rintro ⟨_, _, _, h⟩; simp at h)
    refine ⟨?_, ?_, ?_⟩
    · intro u pc ok c h
      rcases mem_upd h with ⟨-, h⟩ | h
      · obtain ⟨rfl, rfl⟩ := call_new h
        simp
      · exact hi.ok u pc ok c h
    · intro h
      exact (hi.known h).imp hk id
    · intro _
      rcases call_has (s := s) (c := none) with h | h
      · exact .inl (running_new rfl h)
      · exact (hi.known h).imp hk id
  | known t f h1 h2 h3 h4 =>
    refine poor_of (s' := { s with stack := upd s.stack t (.entering f :: s.stack t) }) hi rfl rfl id rfl ?_ (fun h => .inl (has_cons h))
    intro pc ok c h
    exact hi.ok t pc ok c (by simpa using h)
  | unknown t f h1 h2 h3 h4 =>
    refine poor_of (s' := { s with stack := upd s.stack t (.inside f false :: s.stack t) }) hi rfl rfl id rfl ?_ (fun h => .inl (has_cons h))
    intro pc ok c h
    exact hi.ok t pc ok c (by simpa using h)
  | loader t f h1 h2 h3 =>
    refine poor_of (s' := { s with stack := upd s.stack t ((if s.real f then [.entering f] else call s (some f)) ++ s.stack t) }) hi rfl rfl id rfl
      ?_ (fun h => .inl (has_append h))
    intro pc ok c h
    rcases List.mem_append.1 h with h | h
    · split at h
      · simp at h
      · obtain ⟨rfl, rfl⟩ := call_new h
        simp
    · exact hi.ok t pc ok c h
  | enter t f r h1 h2 h3 =>
    refine poor_of (s' := { s with flag := s.flag + 1, stack := upd s.stack t (.inside f true :: r) }) hi rfl rfl id rfl ?_ ?_
    · intro pc ok c h
      exact hi.ok t pc ok c (by rw [h2]; simpa using h)
    · rw [h2]
      intro h
      exact .inl (has_cons (has_tail (by simp) h))
  | leave t f c r h1 h2 =>
    refine poor_of (s' := { s with flag := if c then s.flag - 1 else s.flag, stack := upd s.stack t r }) hi rfl rfl id rfl ?_ ?_
    · intro pc ok c h
      exact hi.ok t pc ok c (by rw [h2]; simp [h])
    · rw [h2]
      intro h
      exact .inl (has_tail (by simp) h)
  | exec t pc ok c r odd op h1 h2 h3 =>
    have hb := hi.ok t pc ok c (by rw [h2]; simp)
    have hbv := hv.frames t (.begin pc ok c) (by rw [h2]; simp)
    have hr : ∀ pc ok c, Frame.begin pc ok c ∈ r → _ := fun pc ok c hf => hi.ok t pc ok c (by rw [h2]; simp [hf])
    cases op with
    | lookup f =>
      have hlt : pc < 25 := by rw [code_lookup h3]; exact at_lt_stop f
      have hne : checkAt g ≠ pc := by rw [code_lookup h3]; cases g <;> cases f <;> decide
      refine ⟨?_, ?_, ?_⟩
      · intro u pc' ok' c' h
        rcases mem_upd h with ⟨-, h⟩ | h
        · rcases List.mem_cons.1 h with h | h
          · cases h
            exact ⟨by omega, hb.2.1, fun h => hb.2.2 (by omega)⟩
          · exact hr _ _ _ h
        · exact hi.ok u _ _ _ h
      · intro _; exact .inl (running_new rfl (has_begin _ _ _ _))
      · intro _; exact .inl (running_new rfl (has_begin _ _ _ _))
    | check f =>
      have hlt : pc < 25 := by rw [(code_check h3).1]; exact check_lt_stop (code_check h3).2
      have hrf : s.real f = e.found f := hbv.1 f (by rw [(code_check h3).1]; exact at_lt f)
      simp only [exec]
      split
      · rename_i hx
        refine poor_of (s' := { s with stack := upd s.stack t (.begin (pc + 1) ok c :: r) }) hi rfl rfl id rfl ?_ (fun _ => .inl (has_begin _ _ _ _))
        intro pc' ok' c' h
        rcases List.mem_cons.1 h with h | h
        · cases h
          have hne : checkAt g ≠ pc := by
            rw [(code_check h3).1]
            intro h
            have : g = f := by revert h; cases g <;> cases f <;> decide
            subst this
            rw [hx, hm] at hrf; simp at hrf
          exact ⟨by omega, hb.2.1, fun h => hb.2.2 (by omega)⟩
        · exact hr _ _ _ h
      · refine poor_of (s' := { s with err := missing f, stack := upd s.stack t (.begin (pc + 1) false c :: r) }) hi rfl rfl (fun _ => bad_missing f) rfl ?_
          (fun _ => .inl (has_begin _ _ _ _))
        intro pc' ok' c' h
        rcases List.mem_cons.1 h with h | h
        · cases h
          exact ⟨by omega, fun _ => bad_missing f, fun _ => rfl⟩
        · exact ⟨(hr _ _ _ h).1, fun _ => bad_missing f, (hr _ _ _ h).2.2⟩
    | stop =>
      have hlt := code_stop h3
      have hok : ok = false := hb.2.2 (by have := check_lt_stop hg; omega)
      subst hok
      simp only [exec, Bool.false_eq_true, if_false]
      refine poor_of (s' := { s with stack := upd s.stack t (back c ++ r) }) hi rfl rfl id rfl ?_ (fun _ => .inr (hb.2.1 rfl))
      intro pc' ok' c' h
      rcases List.mem_append.1 h with h | h
      · exact absurd h back_none
      · exact hr _ _ _ h
    | locks => have := code_locks h3; omega
    | assert => have := code_assert h3; omega
    | disable => have := code_disable h3; omega
  | done t pc ok c r h1 h2 h3 =>
    have hb := hi.ok t pc ok c (by rw [h2]; simp)
    have := code_none h3
    omega
  | served x h1 =>
    have he : s.err = ENONE := by
      unfold gate at h1
      split at h1
      · simp at h1
      · split at h1
        · simp at h1
        · rename_i h; simpa using h
    have hnb : ¬ Bad s.err := by rw [he]; simp [Bad, ENONE, ENOLIBDL, ENOLIBC]
    refine ⟨?_, fun h => .inl ((hi.known h).resolve_right hnb), fun h => .inl ((hi.called h).resolve_right hnb)⟩
    intro t pc ok c h
    obtain ⟨a, b, d⟩ := hi.ok t pc ok c h
    exact ⟨a, fun x => absurd (b x) hnb, d⟩
  | toggle h1 h2 =>
    have hk : Bad s.err → Bad (if s.err = ENONE then EUSRBLOCKED else if s.err = EUSRBLOCKED then ENONE else s.err) := by
      intro h
      rw [if_neg, if_neg]
      · exact h
      · rcases h with h | h <;> rw [h] <;> decide
      · rcases h with h | h <;> rw [h] <;> decide
    refine ⟨?_, fun h => (hi.known h).imp id hk, fun h => (hi.called h).imp id hk⟩
    intro t pc ok c h
    obtain ⟨a, b, d⟩ := hi.ok t pc ok c h
    exact ⟨a, fun x => hk (b x), d⟩

/-! ### The counter -/

/-- How many calls counted in `flag` there are. -/
def counted (l : List Frame) : Nat := l.countP fun | .inside _ true => true | _ => false

def total : Nat → (Nat → List Frame) → Nat
  | 0, _ => 0
  | n + 1, f => total n f + counted (f n)

theorem total_ne (st : Nat → List Frame) {n t : Nat} (h : n ≤ t) (l : List Frame) : total n (upd st t l) = total n st := by
  induction n with
  | zero => rfl
  | succ n ih => simp only [total, ih (by omega)]; simp [upd, show n ≠ t by omega]

theorem total_upd (st : Nat → List Frame) {n t : Nat} (h : t < n) (l : List Frame) :
    total n (upd st t l) + counted (st t) = total n st + counted l := by
  induction n with
  | zero => omega
  | succ n ih =>
    simp only [total]
    by_cases e : t = n
    · subst e
      rw [total_ne st (Nat.le_refl t) l]
      simp [upd]; omega
    · have := ih (by omega)
      have e2 : upd st t l n = st n := by simp [upd, show n ≠ t by omega]
      rw [e2]; omega

theorem total_mem {st : Nat → List Frame} {n t : Nat} (h : t < n) : counted (st t) ≤ total n st := by
  induction n with
  | zero => omega
  | succ n ih =>
    simp only [total]
    by_cases e : t = n
    · subst e; omega
    · have := ih (by omega); omega

structure Counts (n : Nat) (s : St) : Prop where
  flag : s.flag = total n s.stack
  others : ∀ t, n ≤ t → s.stack t = []

theorem counts_start (n : Nat) : Counts n start := by
  refine ⟨?_, fun _ _ => rfl⟩
  have : ∀ n, total n (fun _ => []) = 0 := by
    intro n; induction n with
    | zero => rfl
    | succ n ih => simp [total, ih, counted]
  simp [start, this]

theorem counts_of {n : Nat} {s s' : St} {t : Nat} {l : List Frame} (hi : Counts n s) (ht : t < n) (hs : s'.stack = upd s.stack t l)
    (hf : s'.flag + counted (s.stack t) = s.flag + counted l) : Counts n s' := by
  refine ⟨?_, ?_⟩
  · have := total_upd s.stack ht l
    rw [hs]
    have h2 := hi.flag
    omega
  · intro u hu
    rw [hs]; unfold upd; rw [if_neg (by omega)]
    exact hi.others u hu

theorem counted_back (c : Option Fn) : counted (back c) = 0 := by cases c <;> rfl

theorem counted_call (s : St) (c : Option Fn) : counted (call s c) = 0 := by
  unfold call; split
  · exact counted_back c
  · rfl

theorem counted_append (k l : List Frame) : counted (k ++ l) = counted k + counted l := List.countP_append

theorem counted_begin (pc : Nat) (ok : Bool) (c : Option Fn) (l : List Frame) : counted (.begin pc ok c :: l) = counted l := by
  simp [counted]

theorem counts_step {e : Env} {n : Nat} (hn : 0 < n) {tg : Bool} {s s' : St} (h : Step e n tg s s') (hi : Counts n s) : Counts n s' := by
  cases h with
  | load h1 h2 => exact ⟨hi.flag, hi.others⟩
  | ctor h1 h2 => exact counts_of hi hn rfl (by simp [h2, counted_call]; simp [counted])
  | known t f h1 h2 h3 h4 => exact counts_of hi h1 rfl (by simp [counted])
  | unknown t f h1 h2 h3 h4 => exact counts_of hi h1 rfl (by simp [counted])
  | loader t f h1 h2 h3 =>
    refine counts_of hi h1 rfl ?_
    simp only [counted_append]
    split
    · simp [counted]
    · rw [counted_call]; simp
  | enter t f r h1 h2 h3 => exact counts_of hi h1 rfl (by simp [h2, counted]; omega)
  | leave t f c r h1 h2 => exact counts_of hi h1 rfl (by cases c <;> simp [h2, counted]; omega)
  | exec t pc ok c r odd op h1 h2 h3 =>
    cases op with
    | check f => simp only [exec]; split <;> exact counts_of hi h1 rfl (by simp [h2, counted_begin])
    | stop =>
      refine counts_of hi h1 rfl ?_
      simp only [exec]
      split
      · simp [h2, counted_begin]
      · simp [h2, counted_begin, counted_append, counted_back]
    | lookup f => exact counts_of hi h1 rfl (by simp [exec, h2, counted_begin])
    | locks => exact counts_of hi h1 rfl (by simp [exec, h2, counted_begin])
    | assert => exact counts_of hi h1 rfl (by simp [exec, h2, counted_begin])
    | disable => exact counts_of hi h1 rfl (by simp [exec, h2, counted_begin])
  | done t pc ok c r h1 h2 h3 => exact counts_of hi h1 rfl (by simp [h2, counted_begin, counted_append, counted_back])
  | served x h1 => exact ⟨hi.flag, hi.others⟩
  | toggle h1 h2 => exact ⟨hi.flag, hi.others⟩

/-! ### What is known at the end -/

structure Known (e : Env) (s : St) : Prop where
  load : s.stage ≠ .early → s.load = true
  known : s.real .malloc = true ∨ s.stage = .called → Running s ∨ ∀ f, s.real f = e.found f

theorem known_start (e : Env) : Known e start := ⟨by simp [start], by simp [start]⟩

theorem known_of {e : Env} {s s' : St} {t : Nat} {l : List Frame} (hi : Known e s) (hs : s'.stack = upd s.stack t l)
    (hr : s'.real = s.real) (hl : s'.load = s.load) (hg : s'.stage = s.stage)
    (hh : Has (s.stack t) → Has l ∨ ∀ f, s.real f = e.found f) : Known e s' := by
  refine ⟨by rw [hg, hl]; exact hi.load, ?_⟩
  rw [hr, hg]
  intro h
  rcases hi.known h with h | h
  · by_cases hx : Has (s.stack t) ∧ ¬ Has l
    · exact .inr ((hh hx.1).resolve_left hx.2)
    · exact .inl (running_keep h hs (fun h1 => Classical.byContradiction fun h2 => hx ⟨h1, h2⟩))
  · exact .inr h

theorem known_step {e : Env} {n : Nat} {tg : Bool} {s s' : St} (h : Step e n tg s s') (hv : Inv e s) (hi : Known e s) : Known e s' := by
  cases h with
  | load h1 h2 => exact ⟨fun _ => rfl, fun h => hi.known (.inl (by simpa using h))⟩
  | ctor h1 h2 =>
    refine ⟨fun _ => hi.load (by rw [h1]; simp), ?_⟩
    intro _
    rcases call_has (s := s) (c := none) with h | h
    · exact .inl (running_new rfl h)
    · exact (hi.known (.inl h)).imp (fun h' => running_keep h' rfl (by rw [h2]; rintro ⟨_, _, _, h⟩; simp at h)) id
  | known t f h1 h2 h3 h4 =>
    exact known_of (s' := { s with stack := upd s.stack t (.entering f :: s.stack t) }) hi rfl rfl rfl rfl (fun h => .inl (has_cons h))
  | unknown t f h1 h2 h3 h4 =>
    exact known_of (s' := { s with stack := upd s.stack t (.inside f false :: s.stack t) }) hi rfl rfl rfl rfl (fun h => .inl (has_cons h))
  | loader t f h1 h2 h3 =>
    exact known_of (s' := { s with stack := upd s.stack t ((if s.real f then [.entering f] else call s (some f)) ++ s.stack t) }) hi rfl rfl rfl rfl
      (fun h => .inl (has_append h))
  | enter t f r h1 h2 h3 =>
    refine known_of (s' := { s with flag := s.flag + 1, stack := upd s.stack t (.inside f true :: r) }) hi rfl rfl rfl rfl ?_
    rw [h2]
    exact fun h => .inl (has_cons (has_tail (by simp) h))
  | leave t f c r h1 h2 =>
    refine known_of (s' := { s with flag := if c then s.flag - 1 else s.flag, stack := upd s.stack t r }) hi rfl rfl rfl rfl ?_
    rw [h2]
    exact fun h => .inl (has_tail (by simp) h)
  | exec t pc ok c r odd op h1 h2 h3 =>
    have hbv := hv.frames t (.begin pc ok c) (by rw [h2]; simp)
    cases op with
    | lookup f => exact ⟨hi.load, fun _ => .inl (running_new rfl (has_begin _ _ _ _))⟩
    | check f => simp only [exec]; split <;> exact ⟨hi.load, fun _ => .inl (running_new rfl (has_begin _ _ _ _))⟩
    | stop =>
      have hlt := code_stop h3
      cases ok with
      | true => exact ⟨hi.load, fun _ => .inl (running_new rfl (has_begin _ _ _ _))⟩
      | false =>
        exact known_of (s' := { s with stack := upd s.stack t (back c ++ r) }) hi rfl rfl rfl rfl
          (fun _ => .inr fun f => hbv.1 f (by rw [hlt]; exact at_lt_stop f))
    | locks => exact ⟨hi.load, fun _ => .inl (running_new rfl (has_begin _ _ _ _))⟩
    | assert => exact ⟨hi.load, fun _ => .inl (running_new rfl (has_begin _ _ _ _))⟩
    | disable => exact ⟨hi.load, fun _ => .inl (running_new rfl (has_begin _ _ _ _))⟩
  | done t pc ok c r h1 h2 h3 =>
    have hbv := hv.frames t (.begin pc ok c) (by rw [h2]; simp)
    have := code_none h3
    exact known_of (s' := { s with stack := upd s.stack t (back c ++ r) }) hi rfl rfl rfl rfl
      (fun _ => .inr fun f => hbv.1 f (by have := at_lt_stop f; omega))
  | served x h1 => exact ⟨hi.load, hi.known⟩
  | toggle h1 h2 => exact ⟨hi.load, hi.known⟩

theorem known_steps {e : Env} {n : Nat} {tg : Bool} {s : St} (h : Steps e n tg start s) : Known e s := by
  induction h with
  | refl => exact known_start e
  | tail h1 h ih => exact known_step h (inv_steps h1) ih

theorem fine_steps {e : Env} (hF : Full e) {n : Nat} {tg : Bool} {s : St} (h : Steps e n tg start s) : Fine e tg s := by
  induction h with
  | refl => exact fine_start e tg
  | tail h1 h ih => exact fine_step hF h (inv_steps h1) ih

theorem poor_steps {e : Env} {g : Fn} (hg : g ≠ .valloc) (hm : e.found g = false) {n : Nat} {tg : Bool} {s : St} (h : Steps e n tg start s) :
    Poor g s := by
  induction h with
  | refl => exact poor_start g
  | tail h1 h ih => exact poor_step hg hm h (inv_steps h1) ih

theorem counts_steps {e : Env} {n : Nat} (hn : 0 < n) {tg : Bool} {s : St} (h : Steps e n tg start s) : Counts n s := by
  induction h with
  | refl => exact counts_start n
  | tail _ h ih => exact counts_step hn h ih

end Verif.Startup
