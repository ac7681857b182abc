import Verif.Switch.Spec
import Verif.ErrState.Props
import Verif.Names.Props

/-! C153 (the argument of `ulp set_patchable`), C154 (which processes are switched), C155 (what is told). -/

namespace Verif.Switch

open Verif.ErrState (Att Report setPatchable)

/-! ### The argument -/

theorem lower_eq_iff (c d : UInt8) : lower c = lower d ↔ SameLetter c d := by
  revert c d; unfold SameLetter lower
  intro c d
  have hc := c.toNat_lt
  have hd := d.toNat_lt
  simp only [UInt8.le_iff_toNat_le, ← UInt8.toNat_inj, UInt8.toNat_sub, UInt8.reduceToNat]
  split <;> split <;> (try simp only [UInt8.toNat_add, UInt8.reduceToNat]) <;> omega

theorem caseEq_iff (a b : Str) : caseEq a b = true ↔ SameWord a b := by
  unfold caseEq
  rw [beq_iff_eq]
  induction a generalizing b with
  | nil => cases b <;> simp [SameWord]
  | cons c a ih =>
    cases b with
    | nil => simp [SameWord]
    | cons d b => simp only [List.map_cons, List.cons.injEq, SameWord, ih, lower_eq_iff]

theorem word_enable {arg : Str} (h : SameWord arg enableWord) : word arg = some true := by
  unfold word
  rw [if_pos ((caseEq_iff _ _).mpr h)]

theorem word_other {arg : Str} (h : ¬ SameWord arg enableWord) : word arg = if arg = disableWord then some false else none := by
  unfold word
  rw [if_neg (fun hc => h ((caseEq_iff _ _).mp hc))]

theorem enable_ne_disable (arg : Str) : SameWord arg disableWord → ¬ SameWord arg enableWord := by
  intro h h'
  have e1 := (caseEq_iff _ _).mpr h
  have e2 := (caseEq_iff _ _).mpr h'
  unfold caseEq at e1 e2
  rw [beq_iff_eq] at e1 e2
  rw [e1] at e2
  revert e2
  decide +kernel

theorem sameWord_refl (a : Str) : SameWord a a := by
  induction a with
  | nil => trivial
  | cons c a ih => exact ⟨.inl rfl, ih⟩

/-- **C153**: "enable" is understood in capital and small letters. -/
theorem C153_enable (w : Names.World) (fuel : Nat) (wild user : Option Str) (ts : List Names.Task) (vs : Nat → Visit) (retries : Nat) (arg : Str)
    (h : SameWord arg enableWord) (states : Nat → Err) :
    command w fuel wild user ts vs retries arg states = command w fuel wild user ts vs retries enableWord states := by
  unfold command run
  rw [word_enable h, word_enable (sameWord_refl _)]

/-- **C153**: what is neither "enable" nor "disable" in any letters is refused, with exit status 1, and no process is touched. -/
theorem C153_other_refused (w : Names.World) (fuel : Nat) (wild user : Option Str) (ts : List Names.Task) (vs : Nat → Visit) (retries : Nat) (arg : Str)
    (h1 : ¬ SameWord arg enableWord) (h2 : ¬ SameWord arg disableWord) (states : Nat → Err) :
    command w fuel wild user ts vs retries arg states = ⟨1, states, []⟩ := by
  unfold command run
  rw [word_other h1, if_neg (fun e => h2 (by rw [e]; exact sameWord_refl _))]

/-- C153 is false of "disable": in any other letters than small ones it is refused. -/
theorem C153_disable_small_only (w : Names.World) (fuel : Nat) (wild user : Option Str) (ts : List Names.Task) (vs : Nat → Visit) (retries : Nat)
    (arg : Str) (h : SameWord arg disableWord) (hne : arg ≠ disableWord) (states : Nat → Err) :
    command w fuel wild user ts vs retries arg states = ⟨1, states, []⟩ := by
  unfold command run
  rw [word_other (enable_ne_disable arg h), if_neg hne]

/-! ### The processes -/

theorem real_runErr {v : Visit} (h : v.Real) : ∀ i, ErrState.RunErr (v.env i).runErr := h

theorem visit_change {v : Visit} (h : v.Real) (retries : Nat) (enable : Bool) (s : Err) :
    ((visit v retries enable s).1 = s ∨ s = asked (!enable) ∧ (visit v retries enable s).1 = asked enable) ∧
      ((visit v retries enable s).2 = some .changed → (visit v retries enable s).1 = asked enable) := by
  unfold visit
  split
  · exact ErrState.C52_changes v.env (real_runErr h) retries enable s
  · exact ⟨.inl rfl, by simp⟩

theorem visit_asked {v : Visit} (h : v.Real) (retries : Nat) (enable : Bool) : (visit v retries enable (asked enable)).1 = asked enable := by
  rcases (visit_change h retries enable (asked enable)).1 with e | ⟨_, e⟩ <;> exact e

theorem visit_works {v : Visit} (h : v.Works) {retries : Nat} (hr : 1 ≤ retries) (enable : Bool) {s : Err} (hs : Switchable s) :
    (visit v retries enable s).1 = asked enable := by
  unfold visit
  rw [if_pos h.1]
  exact ErrState.C52_effect v.env retries hr h.2.1 h.2.2 enable s hs

theorem each_cons (vs : Nat → Visit) (retries : Nat) (enable : Bool) (i p : Nat) (ps : List Nat) (states : Nat → Err) :
    each vs retries enable i (p :: ps) states =
      ((each vs retries enable (i + 1) ps (fun q => if q = p then (visit (vs i) retries enable (states p)).1 else states q)).1,
       print p (visit (vs i) retries enable (states p)).2 ++
        (each vs retries enable (i + 1) ps (fun q => if q = p then (visit (vs i) retries enable (states p)).1 else states q)).2) := rfl

theorem each_other (vs : Nat → Visit) (retries : Nat) (enable : Bool) (ps : List Nat) {q : Nat} (hq : q ∉ ps) (i : Nat) (states : Nat → Err) :
    (each vs retries enable i ps states).1 q = states q := by
  induction ps generalizing i states with
  | nil => rfl
  | cons p ps ih =>
    rw [each_cons]
    simp only
    rw [ih (fun h => hq (List.mem_cons_of_mem _ h))]
    rw [if_neg (fun e => hq (by rw [e]; exact List.mem_cons_self ..))]

theorem each_asked (vs : Nat → Visit) (hv : ∀ i, (vs i).Real) (retries : Nat) (enable : Bool) (ps : List Nat) (q : Nat) (i : Nat) (states : Nat → Err)
    (h : states q = asked enable) : (each vs retries enable i ps states).1 q = asked enable := by
  induction ps generalizing i states with
  | nil => exact h
  | cons p ps ih =>
    rw [each_cons]
    refine ih _ _ ?_
    split
    · rename_i e
      rw [← e, h]
      exact visit_asked (hv i) _ _
    · exact h

theorem each_change (vs : Nat → Visit) (hv : ∀ i, (vs i).Real) (retries : Nat) (enable : Bool) (ps : List Nat) (q : Nat) (i : Nat) (states : Nat → Err) :
    (each vs retries enable i ps states).1 q = states q ∨
      states q = asked (!enable) ∧ (each vs retries enable i ps states).1 q = asked enable := by
  induction ps generalizing i states with
  | nil => exact .inl rfl
  | cons p ps ih =>
    rw [each_cons]
    simp only
    by_cases e : q = p
    · subst e
      rcases (visit_change (hv i) retries enable (states q)).1 with h | ⟨h1, h2⟩
      · have := ih (i + 1) (fun r => if r = q then (visit (vs i) retries enable (states q)).1 else states r)
        simpa only [if_pos, h] using this
      · right
        refine ⟨h1, each_asked vs hv _ _ _ _ _ _ ?_⟩
        simp only [if_pos, h2]
    · have := ih (i + 1) (fun r => if r = p then (visit (vs i) retries enable (states p)).1 else states r)
      simpa only [if_neg e] using this

theorem each_works (vs : Nat → Visit) (hw : ∀ i, (vs i).Works) {retries : Nat} (hr : 1 ≤ retries) (enable : Bool) (ps : List Nat) {q : Nat} (hq : q ∈ ps)
    (i : Nat) (states : Nat → Err) (hs : Switchable (states q)) : (each vs retries enable i ps states).1 q = asked enable := by
  have hsw : Switchable (asked enable) := by cases enable; exact .inr rfl; exact .inl rfl
  have stay : ∀ (ps : List Nat) (i : Nat) (states : Nat → Err), states q = asked enable → (each vs retries enable i ps states).1 q = asked enable := by
    intro ps
    induction ps with
    | nil => exact fun i states h => h
    | cons p ps ih =>
      intro i states h
      rw [each_cons]
      refine ih _ _ ?_
      split
      · rename_i e
        rw [← e, h]
        exact visit_works (hw i) hr enable hsw
      · exact h
  induction ps generalizing i states with
  | nil => cases hq
  | cons p ps ih =>
    rw [each_cons]
    simp only
    by_cases e : q = p
    · subst e
      refine stay _ _ _ ?_
      simp only [if_pos]
      exact visit_works (hw i) hr enable hs
    · refine ih ?_ _ _ ?_
      · rcases List.mem_cons.mp hq with h | h
        · exact absurd h e
        · exact h
      · simp only [if_neg e]; exact hs

theorem run_enable (vs : Nat → Visit) (retries : Nat) (enable : Bool) (procs : List Nat) (states : Nat → Err) :
    run vs retries (if enable then enableWord else disableWord) procs states =
      ⟨0, (each vs retries enable 0 procs states).1, (each vs retries enable 0 procs states).2⟩ := by
  unfold run
  have : word (if enable then enableWord else disableWord) = some enable := by cases enable <;> decide +kernel
  rw [this]

/-- The argument that asks for it. -/
def says (enable : Bool) : Str := if enable then enableWord else disableWord

/-- **C154**, changes: whatever goes wrong, a process that is not selected stays as it is, and a selected one stays as it is or is changed from blocked
to enabled when enabling, from enabled to blocked when disabling; so internal errors stay. -/
theorem C154_changes (w : Names.World) (fuel : Nat) (wild user : Option Str) (ts : List Names.Task) (vs : Nat → Visit) (hv : ∀ i, (vs i).Real)
    (retries : Nat) (enable : Bool) (states : Nat → Err) (p : Nat) :
    let d := command w fuel wild user ts vs retries (says enable) states
    d.states p = states p ∨ p ∈ Names.found w fuel wild user ts ∧ states p = asked (!enable) ∧ d.states p = asked enable := by
  unfold command says
  simp only
  rw [run_enable]
  by_cases hp : p ∈ Names.found w fuel wild user ts
  · rcases each_change vs hv retries enable (Names.found w fuel wild user ts) p 0 states with h | h
    · exact .inl h
    · exact .inr ⟨hp, h⟩
  · exact .inl (each_other vs retries enable _ hp 0 states)

/-- **C154**, effect: if threads can be stopped and the routine runs, then all live-patchable processes of the programs whose (short) names match are as
asked for afterwards, unless they have an internal error. -/
theorem C154_effect (w : Names.World) (fuel : Nat) (wild : Str) (ts : List Names.Task) (prog : Names.Task → Str)
    (hn : Text.isnumber (some wild) = false) (hp : ∀ t ∈ ts, t.Runs (prog t) ∧ Names.Short (prog t))
    (hc : ∀ t ∈ ts, Names.hasLibpulp t = true → Names.collects fuel t = true) (vs : Nat → Visit) (hw : ∀ i, (vs i).Works) (retries : Nat)
    (hr : 1 ≤ retries) (enable : Bool) (states : Nat → Err) (t : Names.Task) (ht : t ∈ ts) (hm : w.fnmatch wild (prog t) = true)
    (hl : Names.hasLibpulp t = true) (hself : t.pid ≠ w.self) (hs : Switchable (states t.pid)) :
    (command w fuel (some wild) none ts vs retries (says enable) states).states t.pid = asked enable := by
  unfold command says
  rw [run_enable]
  refine each_works vs hw hr enable _ ?_ 0 states hs
  rw [Names.C150_by_name_partial w fuel wild ts prog hn hp hc]
  refine List.mem_map.mpr ⟨t, List.mem_filter.mpr ⟨ht, ?_⟩, rfl⟩
  simp [hm, hl, hself]

/-! ### What is told -/

theorem each_now (vs : Nat → Visit) (hv : ∀ i, (vs i).Real) (retries : Nat) (enable : Bool) (ps : List Nat) (q : Nat) (i : Nat) (states : Nat → Err)
    (h : Line.now q ∈ (each vs retries enable i ps states).2) : q ∈ ps ∧ (each vs retries enable i ps states).1 q = asked enable := by
  induction ps generalizing i states with
  | nil => cases h
  | cons p ps ih =>
    rw [each_cons] at h ⊢
    simp only at h ⊢
    rcases List.mem_append.mp h with h | h
    · have e : q = p ∧ (visit (vs i) retries enable (states p)).2 = some .changed := by
        generalize hx : (visit (vs i) retries enable (states p)).2 = x at h
        cases x with
        | none => simp [print] at h
        | some r =>
          cases r <;> simp [print] at h
          exact ⟨h, rfl⟩
      obtain ⟨rfl, e⟩ := e
      refine ⟨List.mem_cons_self .., each_asked vs hv _ _ _ _ _ _ ?_⟩
      simp only [if_pos]
      exact (visit_change (hv i) retries enable (states q)).2 e
    · obtain ⟨h1, h2⟩ := ih _ _ h
      exact ⟨List.mem_cons_of_mem _ h1, h2⟩

/-- **C155**, the part that is true: a process said to be enabled or disabled now is so when the command is done; and with exit status 1 nothing was
changed.  Missing: that exit status 0 means success, and that processes that are not as asked for are named (see below). -/
theorem C155_told_partial (w : Names.World) (fuel : Nat) (wild user : Option Str) (ts : List Names.Task) (vs : Nat → Visit) (hv : ∀ i, (vs i).Real)
    (retries : Nat) (arg : Str) (states : Nat → Err) :
    let d := command w fuel wild user ts vs retries arg states
    (∀ p, Line.now p ∈ d.lines → ∃ enable, word arg = some enable ∧ d.states p = asked enable) ∧ (d.status ≠ 0 → d.states = states) := by
  unfold command run
  cases hw : word arg with
  | none => exact ⟨fun p h => (by cases h), fun _ => rfl⟩
  | some enable =>
    simp only
    exact ⟨fun p h => ⟨enable, rfl, (each_now vs hv retries enable _ p 0 states h).2⟩, fun h => absurd rfl h⟩

theorem each_same {vs : Nat → Visit} {retries : Nat} {enable : Bool} (hv : ∀ i s, (visit (vs i) retries enable s).1 = s) (ps : List Nat)
    (states : Nat → Err) (i : Nat) : (each vs retries enable i ps states).1 = states := by
  induction ps generalizing i with
  | nil => rfl
  | cons p ps ih =>
    rw [each_cons]
    simp only [hv]
    rw [show (fun q => if q = p then states p else states q) = states from funext fun q => by split <;> simp_all]
    exact ih _

/-- C155 is false: whatever happens to the processes, the exit status is 0; even if no process could be stopped, and none is as asked for. -/
theorem C155_status_always_zero (w : Names.World) (fuel : Nat) (wild user : Option Str) (ts : List Names.Task) (vs : Nat → Visit) (retries : Nat)
    (enable : Bool) (states : Nat → Err) :
    (command w fuel wild user ts vs retries (says enable) states).status = 0 ∧
      ((∀ i, ((vs i).env 0).hijacked = false) → (command w fuel wild user ts vs retries (says enable) states).states = states) := by
  unfold command says
  rw [run_enable]
  refine ⟨rfl, fun hh => ?_⟩
  simp only
  have hv : ∀ i s, (visit (vs i) retries enable s).1 = s := by
    intro i s
    unfold visit
    split
    · unfold setPatchable
      split
      · cases retries with
        | zero => rfl
        | succ n => simp [ErrState.attempts, hh i]
      · rfl
    · rfl
  exact each_same hv _ _ _

/-- C155 is false: with `-r 0` nothing is tried, and exit status 0 returned. -/
theorem C155_no_retries (w : Names.World) (fuel : Nat) (wild user : Option Str) (ts : List Names.Task) (vs : Nat → Visit)
    (enable : Bool) (states : Nat → Err) : (command w fuel wild user ts vs 0 (says enable) states).states = states := by
  unfold command says
  rw [run_enable]
  have hv : ∀ i s, (visit (vs i) 0 enable s).1 = s := by
    intro i s
    unfold visit
    split
    · unfold setPatchable
      split <;> rfl
    · rfl
  exact each_same hv _ _ _

/-- C155 is false: processes with an internal error, which cannot be switched, are passed over without a word. -/
theorem C155_errors_silent (w : Names.World) (fuel : Nat) (wild user : Option Str) (ts : List Names.Task) (vs : Nat → Visit) (retries : Nat)
    (enable : Bool) (states : Nat → Err) (h : ∀ p ∈ Names.found w fuel wild user ts, ¬ Switchable (states p)) :
    command w fuel wild user ts vs retries (says enable) states = ⟨0, states, []⟩ := by
  unfold command says
  rw [run_enable]
  have hv : ∀ i s, ¬ Switchable s → ∃ r, visit (vs i) retries enable s = (s, some (.refused r)) := by
    intro i s hs
    unfold visit
    split
    · exact ⟨s, ErrState.C52_internal_error _ _ _ _ (fun e => hs (.inl e)) (fun e => hs (.inr e))⟩
    · exact ⟨_, rfl⟩
  generalize Names.found w fuel wild user ts = ps at h
  have : ∀ i, each vs retries enable i ps states = (states, []) := by
    induction ps with
    | nil => exact fun i => rfl
    | cons p ps ih =>
      intro i
      obtain ⟨r, hr⟩ := hv i (states p) (h p (List.mem_cons_self ..))
      rw [each_cons, hr]
      simp only
      rw [show (fun q => if q = p then states p else states q) = states from funext fun q => by split <;> simp_all]
      rw [ih (fun q hq => h q (List.mem_cons_of_mem _ hq))]
      rfl
  rw [this]

/-! ### Cases -/

open Names (demoW demoT demoP str)

/-- All is well. -/
def fine : Visit := ⟨true, EUNKNOWN, fun _ => ⟨true, 0, true, true⟩⟩

/-- The threads of the process cannot be stopped. -/
def stuck : Visit := ⟨true, EUNKNOWN, fun _ => ⟨false, 0, false, true⟩⟩

theorem fine_works : fine.Works ∧ fine.Real := ⟨⟨rfl, rfl, rfl⟩, fun _ => .inl rfl⟩

theorem stuck_real : stuck.Real := fun _ => .inl rfl

/-- "Enable", "DISABLE", "maybe". -/
example : SameWord (str "Enable") enableWord ∧ SameWord (str "DISABLE") disableWord ∧ str "DISABLE" ≠ disableWord ∧
    ¬ SameWord (str "maybe") enableWord ∧ ¬ SameWord (str "maybe") disableWord := by
  refine ⟨(caseEq_iff _ _).mp (by decide +kernel), (caseEq_iff _ _).mp (by decide +kernel), by decide +kernel, fun h => ?_, fun h => ?_⟩
  · exact absurd ((caseEq_iff _ _).mpr h) (by decide +kernel)
  · exact absurd ((caseEq_iff _ _).mpr h) (by decide +kernel)

example := C153_enable demoW 100 none none [demoT 10 "srv" none] (fun _ => fine) 3 (str "Enable") ((caseEq_iff _ _).mp (by decide +kernel))
  (fun _ => EUSRBLOCKED)
example := C153_disable_small_only demoW 100 none none [demoT 10 "srv" none] (fun _ => fine) 3 (str "DISABLE") ((caseEq_iff _ _).mp (by decide +kernel))
  (by decide +kernel) (fun _ => ENONE)
example := C153_other_refused demoW 100 none none [demoT 10 "srv" none] (fun _ => fine) 3 (str "maybe")
  (fun h => absurd ((caseEq_iff _ _).mpr h) (by decide +kernel)) (fun h => absurd ((caseEq_iff _ _).mpr h) (by decide +kernel)) (fun _ => ENONE)

/-- Two processes of the program are disabled, another one is not. -/
example : ∃ N, ∀ fuel, N ≤ fuel → ∀ p, p = 10 ∨ p = 12 →
    (command demoW fuel (some (str "srv")) none [demoT 10 "srv" none, demoT 11 "srv2" none, demoT 12 "srv" none] (fun _ => fine) 1 (says false)
      (fun _ => ENONE)).states p = EUSRBLOCKED := by
  obtain ⟨N, hN⟩ := Names.demo_collects
  refine ⟨N, fun fuel hf => ?_⟩
  have key := C154_effect demoW fuel (str "srv") [demoT 10 "srv" none, demoT 11 "srv2" none, demoT 12 "srv" none]
    (fun t => if t.pid = 11 then str "srv2" else str "srv") (by decide +kernel)
    (by
      simp only [List.mem_cons, List.not_mem_nil, or_false]
      rintro t (rfl | rfl | rfl) <;> exact ⟨rfl, by unfold Names.Short; decide +kernel⟩)
    (by
      simp only [List.mem_cons, List.not_mem_nil, or_false]
      rintro t (rfl | rfl | rfl) _ <;> exact hN fuel hf _ _ _)
    (fun _ => fine) (fun _ => fine_works.1) 1 (by decide) false (fun _ => ENONE)
  rintro p (rfl | rfl)
  · exact key (demoT 10 "srv" none) (by simp) (by decide +kernel) (Names.demo_has _ _ _) (by decide) (.inl rfl)
  · exact key (demoT 12 "srv" none) (by simp) (by decide +kernel) (Names.demo_has _ _ _) (by decide) (.inl rfl)

example := C154_changes demoW 100 (some (str "srv")) none [demoT 10 "srv" none, demoT 11 "srv2" none] (fun i => if i = 0 then fine else stuck)
  (fun i => by split; exact fine_works.2; exact stuck_real) 5 true (fun p => if p = 10 then EUSRBLOCKED else EINSNQ)
example := C155_told_partial demoW 100 none none [demoT 10 "srv" none, demoT 11 "srv2" none] (fun i => if i = 0 then fine else stuck)
  (fun i => by split; exact fine_works.2; exact stuck_real) 5 (str "Enable") (fun _ => EUSRBLOCKED)

/-- A process is told to be disabled now, and another one is passed over: what it is in, is an internal error. -/
example : (run (fun _ => fine) 3 disableWord [10, 11] (fun p => if p = 10 then ENONE else EINSNQ)).lines = [.now 10] ∧
    (run (fun _ => fine) 3 disableWord [10, 11] (fun p => if p = 10 then ENONE else EINSNQ)).states 11 = EINSNQ := by
  constructor <;> decide +kernel

example := (C155_status_always_zero demoW 100 none none [demoT 10 "srv" none, demoT 11 "srv2" none] (fun _ => stuck) 100 false (fun _ => ENONE)).2
  (fun _ => rfl)
example := C155_no_retries demoW 100 none none [demoT 10 "srv" none, demoT 11 "srv2" none] (fun _ => fine) false (fun _ => ENONE)
example := C155_errors_silent demoW 100 none none [demoT 10 "srv" none, demoT 11 "srv2" none] (fun _ => fine) 100 true (fun _ => EINSNQ)
  (fun p _ h => by rcases h with h | h <;> revert h <;> decide)

end Verif.Switch
