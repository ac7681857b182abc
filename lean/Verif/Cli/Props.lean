import Verif.Cli.Lemmas

/-!
C121–C125: what `ulp` makes of its command line.
-/

namespace Verif.Cli

open Spec

/-! ### C121: a command line means what it says -/

theorem firstCommand_ofArgs (ws : List Str) (c : Cmd) (h : FirstCommand ws c) : ofArgs ws = some c := by
  obtain ⟨pre, post, rfl, h⟩ := h
  rw [ofArgs_skip pre _ h, ofArgs_name]

theorem parse_line (stack : Bool) (prog : Str) (l : Line) (c : Cmd) (hc : FirstCommand (prog :: l.render) c)
    (hl : l.Ok (table stack c ++ argpOpts)) :
    parse stack (prog :: l.render) =
      match optionAll {} (evs l.settings) with
      | .error n => .error n
      | .ok a => words a l.words := by
  unfold parse
  rw [firstCommand_ofArgs _ _ hc, List.tail_cons, scan_line _ (options_ok stack (some c)) l hl]
  rfl

theorem parse_meaning (stack : Bool) (prog : Str) (l : Line) (c : Cmd) (hc : FirstCommand (prog :: l.render) c)
    (hl : l.Ok (table stack c ++ argpOpts)) (hi : NoInfo l.settings) :
    (∀ c', Correct l.settings l.words c' →
      parse stack (prog :: l.render) = .ok (c', wanted l.settings l.words.tail.head?)) ∧
    ((∀ c', ¬ Correct l.settings l.words c') → parse stack (prog :: l.render) = .error 64) := by
  have hv : Valued l.settings := line_valued _ (options_values stack (some c)) l hl
  rw [parse_line stack prog l c hc hl]
  have ho := optionAll_wanted l.settings hv hi
  constructor
  · intro c' hcor
    rw [ho.1 hcor.1]
    exact (words_wanted l.settings hv hcor.1 l.words).1 c' hcor
  · intro hno
    by_cases hn : Numbers l.settings
    · rw [ho.1 hn]
      exact (words_wanted l.settings hv hn l.words).2 hno
    · rw [ho.2 hn]; rfl

theorem ptraceScope_of_may (y : Sys) (h : MayAttach y) : ptraceScope y = some true := by
  unfold ptraceScope
  rcases h with h | h | h
  · simp [h]
  · simp [h]
  · rw [h]; cases y.root <;> decide +kernel

theorem requiresPtrace_iff (c : Cmd) : requiresPtrace c = true ↔ Attaches c := by
  cases c <;> simp [requiresPtrace, Attaches]

/-- **C121.** Let a command line be made of options of the command it names (long ones in full or cut short, short ones apart or
together, values joined or not), other words anywhere between them, and perhaps `--`.  If it is a correct use of a command,
this command is run with exactly what the options and words say, whatever their order and spelling; if not, `ulp` exits with
status 64 and runs nothing. -/
theorem C121_meaning (stack : Bool) (y : Sys) (prog : Str) (l : Line) (c : Cmd) (hc : FirstCommand (prog :: l.render) c)
    (hl : l.Ok (table stack c ++ argpOpts)) (hi : NoInfo l.settings) :
    (∀ c', Correct l.settings l.words c' → (Attaches c' → MayAttach y) →
      main stack y (prog :: l.render) = .run c' (wanted l.settings l.words.tail.head?)) ∧
    ((∀ c', ¬ Correct l.settings l.words c') → main stack y (prog :: l.render) = .exit 64) := by
  have h := parse_meaning stack prog l c hc hl hi
  constructor
  · intro c' hcor hat
    simp only [main, h.1 c' hcor]
    cases hr : requiresPtrace c' with
    | false => simp
    | true => simp [ptraceScope_of_may y (hat ((requiresPtrace_iff c').1 hr))]
  · intro hno
    simp only [main, h.2 hno]

/-- **C121, information.** If an option asks for help, usage or the version, and nothing before it is wrong, `ulp` exits with
status 0 and runs nothing, whatever else the line says. -/
theorem C121_information (stack : Bool) (y : Sys) (prog : Str) (l : Line) (c : Cmd) (hc : FirstCommand (prog :: l.render) c)
    (hl : l.Ok (table stack c ++ argpOpts)) (pre post : List (Key × Option Str)) (k : Key) (v : Option Str)
    (hs : l.settings = pre ++ (k, v) :: post) (hpre : NoInfo pre) (hn : Numbers pre)
    (hk : k = .help ∨ k = .usage ∨ k = .version) :
    main stack y (prog :: l.render) = .exit 0 := by
  have hv : Valued l.settings := line_valued _ (options_values stack (some c)) l hl
  have hvp : Valued pre := fun p hp => hv p (by rw [hs]; simp [hp])
  have he : evs l.settings = evs pre ++ .opt k v :: evs post := by simp [hs, evs]
  have ho : optionAll {} (evs l.settings) = .error 0 := by
    rw [he, optionAll_append, (optionAll_wanted pre hvp hpre).1 hn]
    rcases hk with rfl | rfl | rfl <;> rfl
  simp only [main, parse_line stack prog l c hc hl, ho]

theorem optionAll_bad (a : Arguments) (es : List Event) (h : .bad ∈ es) : ∃ n, optionAll a es = .error n := by
  induction es generalizing a with
  | nil => simp at h
  | cons e es ih =>
    rw [optionAll]
    cases ho : option a e with
    | error n => exact ⟨n, rfl⟩
    | ok a' =>
      rcases List.mem_cons.1 h with h | h
      · subst h; simp [option] at ho
      · exact ih a' h

/-- **C121, wrong options.** An option that is unknown, ambiguous, has a value it does not take or lacks the one it needs is never
ignored: nothing is run, whatever is before and after it. -/
theorem C121_wrong (stack : Bool) (y : Sys) (prog : Str) (items : List Item) (c : Cmd) (ws : List Str)
    (hc : FirstCommand (prog :: (items.flatMap Item.render ++ ws)) c)
    (hl : ∀ i ∈ items, i.Ok (table stack c ++ argpOpts)) (hw : Wrong (table stack c ++ argpOpts) ws) :
    ∃ s, main stack y (prog :: (items.flatMap Item.render ++ ws)) = .exit s := by
  have ht : TableOk (table stack c ++ argpOpts) := options_ok stack (some c)
  have hs := scan_items _ ht items hl ws
  obtain ⟨m, hm⟩ := optionAll_bad {} (scan (table stack c ++ argpOpts) none (items.flatMap Item.render ++ ws)).1 (by
    rw [hs]
    exact List.mem_append_right _ (scan_wrong _ ht ws hw))
  refine ⟨m, ?_⟩
  unfold main parse
  rw [firstCommand_ofArgs _ _ hc]
  simp only [List.tail_cons, options, hm]

theorem scan_words_mem (t : List Opt) (ws : List Str) : ∀ p, ∀ w ∈ (scan t p ws).2, w ∈ ws := by
  induction ws with
  | nil => intro p w hw; cases p <;> simp [scan] at hw
  | cons x ws ih =>
    intro p w hw
    cases p with
    | some k =>
      rw [scan] at hw
      exact List.mem_cons_of_mem _ (ih _ w hw)
    | none =>
      rw [scan] at hw
      split at hw
      · exact List.mem_cons_of_mem _ hw
      · split at hw
        · exact List.mem_cons_of_mem _ (ih _ w hw)
        · split at hw
          · exact List.mem_cons_of_mem _ (ih _ w hw)
          · rcases List.mem_cons.1 hw with h | h
            · simp [h]
            · exact List.mem_cons_of_mem _ (ih _ w h)

/-- **C121, no command.** Whatever the words are: if none is the name of a command, nothing is run; and what is run is named by
a word. -/
theorem C121_command_named (stack : Bool) (y : Sys) (argv : List Str) (c : Cmd) (a : Arguments)
    (h : main stack y argv = .run c a) : c.name ∈ argv.tail := by
  unfold main at h
  cases hp : parse stack argv with
  | error n => simp [hp] at h
  | ok r =>
    obtain ⟨c', a'⟩ := r
    have hcc : c' = c := by
      simp only [hp] at h
      split at h
      · split at h <;> simp_all
      · simp_all
    subst hcc
    unfold parse at hp
    simp only at hp
    split at hp
    · simp at hp
    · rename_i a0 _
      have hmem := scan_words_mem (options stack (ofArgs argv)) argv.tail none
      generalize (scan (options stack (ofArgs argv)) none argv.tail).2 = ws at hp hmem
      cases ws with
      | nil => simp [words] at hp
      | cons w ws =>
        have hw : ofString w = some c' := by
          cases ho : ofString w with
          | none => simp [words, ho] at hp
          | some d =>
            match ws with
            | [] => simp only [words, ho] at hp; split at hp <;> simp_all
            | [x] => simp only [words, ho] at hp; split at hp <;> simp_all
            | x :: z :: ws => simp [words, ho] at hp
        rw [← ofString_some w c' hw]
        exact hmem w (by simp)

/-! ### C122: the options are those of the command -/

theorem name_head (c : Cmd) : c.name.head? ≠ some 45 := by cases c <;> decide +kernel

theorem dash_not_command (w : Str) (h : w.head? = some 45) : ¬ IsCommand w := by
  rintro ⟨c, rfl⟩
  exact name_head c h

theorem render_option (t : List Opt) (i : Item) (hi : i.Ok t) (hw : i.words = []) (hv : ∀ v ∈ i.values, ¬ IsCommand v) :
    ∀ w ∈ i.render, ¬ IsCommand w := by
  cases i with
  | word w => simp [Item.words] at hw
  | long n o v j =>
    intro w hw
    cases v with
    | none => simp [Item.render] at hw; subst hw; exact dash_not_command _ rfl
    | some v =>
      cases j with
      | true => simp [Item.render] at hw; subst hw; exact dash_not_command _ rfl
      | false =>
        simp [Item.render] at hw
        rcases hw with rfl | rfl
        · exact dash_not_command _ rfl
        · exact hv _ (by simp [Item.values])
  | short fs last =>
    intro w hw
    cases last with
    | none => simp [Item.render] at hw; subst hw; exact dash_not_command _ rfl
    | some q =>
      obtain ⟨o, v, j⟩ := q
      cases j with
      | true => simp [Item.render] at hw; subst hw; exact dash_not_command _ rfl
      | false =>
        simp [Item.render] at hw
        rcases hw with rfl | rfl
        · exact dash_not_command _ rfl
        · exact hv _ (by simp [Item.values])

theorem first_of_items (t : List Opt) (items : List Item) (hi : ∀ i ∈ items, i.Ok t)
    (hv : ∀ i ∈ items, ∀ v ∈ i.values, ¬ IsCommand v) (tail : List Str) (more : List Str) (c : Cmd)
    (hw : (items.flatMap Item.words ++ more).head? = some c.name)
    (ht : more.head? = some c.name → FirstCommand tail c) :
    FirstCommand (items.flatMap Item.render ++ tail) c := by
  induction items with
  | nil => simpa using ht (by simpa using hw)
  | cons i is ih =>
    by_cases hiw : i.words = []
    · have h1 := ih (fun i h => hi i (by simp [h])) (fun i h => hv i (by simp [h])) (by simpa [hiw] using hw)
      obtain ⟨pre, post, e, hp⟩ := h1
      refine ⟨i.render ++ pre, post, ?_, ?_⟩
      · rw [List.flatMap_cons, List.append_assoc, e, List.append_assoc]
      · intro w hw
        rcases List.mem_append.1 hw with hw | hw
        · exact render_option t i (hi i (by simp)) hiw (hv i (by simp)) w hw
        · exact hp w hw
    · cases i with
      | word w =>
        simp [Item.words] at hw
        subst hw
        exact ⟨[], _, by simp [Item.render]; rfl, by simp⟩
      | long _ _ _ _ => exact absurd rfl hiw
      | short _ _ => exact absurd rfl hiw

/-- **C122, what holds.** If neither the name `ulp` is started under nor a value of an option is the name of a command, then
the options of the command itself count: the line means what C121 says for the first word that is not an option. -/
theorem C122_own_options_partial (stack : Bool) (y : Sys) (prog : Str) (l : Line) (c : Cmd) (hp : ¬ IsCommand prog)
    (hv : ∀ i ∈ l.items, ∀ v ∈ i.values, ¬ IsCommand v) (hl : l.Ok (table stack c ++ argpOpts))
    (hw : l.words.head? = some c.name) (hi : NoInfo l.settings) :
    (Correct l.settings l.words c → (Attaches c → MayAttach y) →
      main stack y (prog :: l.render) = .run c (wanted l.settings l.words.tail.head?)) ∧
    (¬ Correct l.settings l.words c → main stack y (prog :: l.render) = .exit 64) := by
  have hf : FirstCommand l.render c := by
    unfold Line.render
    refine first_of_items _ l.items hl hv _ (l.rest.getD []) c hw ?_
    intro hm
    cases hr : l.rest with
    | none => simp [hr] at hm
    | some r =>
      simp [hr] at hm
      cases r with
      | nil => simp at hm
      | cons x r =>
        simp at hm
        subst hm
        exact ⟨[[45, 45]], r, rfl, by intro w hw; simp at hw; subst hw; exact dash_not_command _ rfl⟩
  have hf : FirstCommand (prog :: l.render) c := by
    obtain ⟨pre, post, e, h⟩ := hf
    refine ⟨prog :: pre, post, by rw [e]; rfl, ?_⟩
    intro w hw
    rcases List.mem_cons.1 hw with rfl | hw
    · exact hp
    · exact h w hw
  have h := C121_meaning stack y prog l c hf hl hi
  refine ⟨h.1 c, fun hn => h.2 fun c' hc' => ?_⟩
  have : c' = c := by
    obtain ⟨_, _, args, e, _⟩ := hc'
    rw [e] at hw
    simp at hw
    exact name_inj _ _ hw
  subst this
  exact hn hc'

theorem no_p_refused (stack : Bool) (y : Sys) (argv : List Str) (prog : Str) (rest : List Str) (c : Cmd)
    (he : argv = prog :: b "-p" :: rest) (hc : ofArgs argv = some c)
    (hno : (options stack (some c)).find? (fun o => o.short == some 112) = none) : main stack y argv = .exit 64 := by
  have hcl : cluster (options stack (some c)) [112] = ([.bad], none) := by
    rw [cluster]; simp only [hno]
  have hs : (scan (options stack (some c)) none (b "-p" :: rest)).1 = .bad :: (scan (options stack (some c)) none rest).1 := by
    have : b "-p" = [45] ++ [112] := by decide +kernel
    rw [this, scan_short _ _ (by simp) (by simp), hcl]
    rfl
  unfold main parse
  rw [hc]
  subst he
  simp only [List.tail_cons, hs, optionAll, option]
  rfl

set_option maxRecDepth 4000 in
theorem no_p (stack : Bool) (c : Cmd) (h : c = .dump ∨ c = .packer ∨ c = .post ∨ c = .livepatchable ∨ c = .extract) :
    (options stack (some c)).find? (fun o => o.short == some 112) = none := by
  cases stack <;> rcases h with rfl | rfl | rfl | rfl | rfl <;> decide +kernel

/-- **C122 is false in general.** The value of an option is taken for the command: with a process of the name of a command without
`-p` before the command, every line is refused, whatever the rest is. -/
theorem C122_value_taken_for_command (stack : Bool) (y : Sys) (prog : Str) (hp : ¬ IsCommand prog) (c : Cmd)
    (h : c = .dump ∨ c = .packer ∨ c = .post ∨ c = .livepatchable ∨ c = .extract) (rest : List Str) :
    main stack y (prog :: b "-p" :: c.name :: rest) = .exit 64 := by
  refine no_p_refused stack y _ prog (c.name :: rest) c rfl ?_ (no_p stack c h)
  have := ofArgs_skip [prog, b "-p"] (c.name :: rest) (by
    intro w hw
    simp at hw
    rcases hw with rfl | rfl
    · exact hp
    · exact dash_not_command _ (by decide +kernel))
  simpa [ofArgs_name] using this

/-- **C122 is false in general.** So is the name under which the program was started. -/
theorem C122_program_taken_for_command (stack : Bool) (y : Sys) (c : Cmd)
    (h : c = .dump ∨ c = .packer ∨ c = .post ∨ c = .livepatchable ∨ c = .extract) (rest : List Str) :
    main stack y (c.name :: b "-p" :: rest) = .exit 64 :=
  no_p_refused stack y _ c.name rest c rfl (ofArgs_name c _) (no_p stack c h)

/-- **C122 is false in general.** A correct line that is refused: the processes named `extract` cannot be patched with `-p` first. -/
theorem C122_correct_line_refused (stack : Bool) (y : Sys) :
    let l : Line := ⟨[.short [] (some (oProcess, b "extract", false)), .word (b "trigger"), .word (b "x.so")], none⟩
    l.Ok (table stack .trigger ++ argpOpts) ∧ NoInfo l.settings ∧ Correct l.settings l.words .trigger ∧
    main stack y (b "ulp" :: l.render) = .exit 64 := by
  refine ⟨?_, ?_, ?_, ?_⟩
  · intro i hi
    simp at hi
    rcases hi with rfl | rfl | rfl
    · refine ⟨by simp, by simp, ?_⟩
      intro o v j h
      cases h
      exact ⟨by simp [table], by decide +kernel, rfl, by simp⟩
    · exact Or.inr (by decide +kernel)
    · exact Or.inr (by decide +kernel)
  · intro p hp
    simp [Line.settings, Item.settings] at hp
    subst hp
    simp [oProcess]
  · refine ⟨by simp [Numbers, values, Line.settings, Item.settings, oProcess], by decide +kernel, [b "x.so"], by decide +kernel,
      by decide, ?_⟩
    have : libraries (Line.settings ⟨[.short [] (some (oProcess, b "extract", false)), .word (b "trigger"), .word (b "x.so")], none⟩)
        = [] := by decide +kernel
    simp only [Rules]
    rw [this]
    exact ⟨by simp, by intro x hx; simp at hx; subst hx; decide +kernel⟩
  · have e : (Line.render ⟨[.short [] (some (oProcess, b "extract", false)), .word (b "trigger"), .word (b "x.so")], none⟩) =
        b "-p" :: Cmd.extract.name :: [b "trigger", b "x.so"] := by decide +kernel
    rw [e]
    exact C122_value_taken_for_command stack y (b "ulp") (by rintro ⟨c, h⟩; cases c <;> revert h <;> decide +kernel) .extract
      (by simp) _

/-! ### C123: attaching must be allowed -/

/-- **C123.** Let the level of Yama be `d`, and the user not be root.  For the commands that attach to processes and `d` not `0`,
`ulp` exits with status 1 before it looks at any process; in all other cases it does what it does for root. -/
theorem C123_scope (stack : Bool) (y : Sys) (argv : List Str) (d : UInt8) (hr : y.root = false) (hs : y.scope = some [d, 10]) :
    (∀ c a, main stack { y with root := true } argv = .run c a → Attaches c → d ≠ 48 → main stack y argv = .exit 1) ∧
    (¬ (∃ c a, main stack { y with root := true } argv = .run c a ∧ Attaches c ∧ d ≠ 48) →
      main stack y argv = main stack { y with root := true } argv) := by
  have h1 : ptraceScope { y with root := true } = some true := by simp [ptraceScope]
  have h2 : ptraceScope y = some (d == 48) := by simp [ptraceScope, hr, hs]
  unfold main
  cases parse stack argv with
  | error n => simp
  | ok r =>
    obtain ⟨c, a⟩ := r
    simp only [h1, h2]
    cases hq : requiresPtrace c with
    | false =>
      have : ¬ Attaches c := by rw [← requiresPtrace_iff, hq]; simp
      simp
      intro hc
      exact absurd hc this
    | true =>
      have hat := (requiresPtrace_iff c).1 hq
      by_cases hd : d = 48
      · subst hd; simp
      · have hb : (d == 48) = false := by simpa using hd
        simp [hb, hat, hd, EPERM]

/-- **C123.** Without Yama, and for root, the level plays no role. -/
theorem C123_free (stack : Bool) (y : Sys) (argv : List Str) (h : y.root = true ∨ y.scope = none) :
    main stack y argv = main stack ⟨true, none, none⟩ argv := by
  have h1 : ptraceScope y = some true := ptraceScope_of_may y (by rcases h with h | h <;> simp [MayAttach, h])
  have h2 : ptraceScope ⟨true, none, none⟩ = some true := rfl
  unfold main
  rw [h1, h2]

/-- **C123, the status.** The status of the refusal is the one by which `ulp check` says that the patch is applied: with Yama at
level 1 a correct `ulp check` of an ordinary user exits with 1 for every patch and every process. -/
theorem C123_check_says_applied (stack : Bool) (prog : Str) (l : Line) (hc : FirstCommand (prog :: l.render) .check)
    (hl : l.Ok (table stack .check ++ argpOpts)) (hi : NoInfo l.settings) (hcor : Correct l.settings l.words .check)
    (st : Option Str) : main stack ⟨false, some (b "1\n"), st⟩ (prog :: l.render) = .exit 1 := by
  have hb : b "1\n" = [49, 10] := by decide +kernel
  rw [hb]
  refine (C123_scope stack ⟨false, some [49, 10], st⟩ _ 49 rfl rfl).1 .check _
    ((C121_meaning stack _ prog l .check hc hl hi).1 .check hcor (fun _ => Or.inl rfl)) (by simp [Attaches]) (by decide)

/-! ### C124: seccomp filters are suspended only by those who may -/

/-- **C124.** `--disable-seccomp` is accepted exactly if the permitted capabilities in /proc/self/status include `CAP_SYS_ADMIN`
(bit 21), whatever the other fields say; otherwise the status is 1 and no process is looked at. -/
theorem C124_seccomp (root : Bool) (scope : Option Str) (before after : List (Str × Str)) (caps : Nat) (hcaps : caps < 2 ^ 64)
    (hb : ∀ f ∈ before, OtherField f) (a : Arguments) (hs : a.noSeccomp = true) (hu : a.user = none) :
    runTrigger ⟨root, scope, some (statusFile before caps after)⟩ a = if caps.testBit 21 then .go else .status 1 := by
  have h : checkSysAdmin ⟨root, scope, some (statusFile before caps after)⟩ = some (caps.testBit 21) := by
    unfold checkSysAdmin statusFile
    simp only
    rw [List.append_assoc, checkLines_before before hb, checkLines_caps caps hcaps]
  unfold runTrigger
  rw [h]
  cases caps.testBit 21 <;> simp [hs, hu, EPERM]

/-- **C124.** Without /proc the option is refused. -/
theorem C124_no_proc (root : Bool) (scope : Option Str) (a : Arguments) (hs : a.noSeccomp = true) (hu : a.user = none) :
    runTrigger ⟨root, scope, none⟩ a = .status 1 := by
  simp [runTrigger, checkSysAdmin, hs, hu, EPERM]

/-- **C124.** Without the option the capabilities are not asked for. -/
theorem C124_not_asked (y : Sys) (a : Arguments) (hs : a.noSeccomp = false) (hu : a.user = none) : runTrigger y a = .go := by
  simp [runTrigger, hs, hu]

/-! ### C125: a user given to `ulp trigger` -/

theorem run_wanted (stack : Bool) (y : Sys) (prog : Str) (l : Line) (c : Cmd) (hc : FirstCommand (prog :: l.render) c)
    (hl : l.Ok (table stack c ++ argpOpts)) (c' : Cmd) (a : Arguments)
    (hr : main stack y (prog :: l.render) = .run c' a) : a = wanted l.settings l.words.tail.head? ∧ Numbers l.settings := by
  have hpa : parse stack (prog :: l.render) = .ok (c', a) := by
    unfold main at hr
    cases hq : parse stack (prog :: l.render) with
    | error n => simp [hq] at hr
    | ok r =>
      obtain ⟨c', a'⟩ := r
      simp only [hq] at hr
      split at hr
      · split at hr <;> simp_all
      · simp_all
  by_cases hi : NoInfo l.settings
  · have hp := parse_meaning stack prog l c hc hl hi
    by_cases hcor : ∃ c', Correct l.settings l.words c'
    · obtain ⟨c', hcor⟩ := hcor
      have := hp.1 c' hcor
      rw [hpa] at this
      injection this with this
      injection this with _ h
      exact ⟨h, hcor.1⟩
    · have := hp.2 (fun c' h => hcor ⟨c', h⟩)
      rw [hpa] at this
      cases this
  · exfalso
    have : ∀ (s : List (Key × Option Str)) a, ¬ NoInfo s → ∃ n, optionAll a (evs s) = .error n := by
      intro s
      induction s with
      | nil => intro a h; exact absurd (by intro p hp; simp at hp) h
      | cons p s ih =>
        intro a h
        simp only [evs, List.map_cons, optionAll]
        cases ho : option a (.opt p.1 p.2) with
        | error n => exact ⟨n, rfl⟩
        | ok a' =>
          refine ih a' fun hs => h ?_
          intro q hq
          rcases List.mem_cons.1 hq with rfl | hq
          · refine ⟨?_, ?_, ?_⟩ <;> intro e <;> rw [e] at ho <;> simp [option] at ho
          · exact hs q hq
    obtain ⟨n, hn⟩ := this _ {} hi
    rw [parse_line stack prog l c hc hl, hn] at hpa
    cases hpa

/-- **C125.** A command line of `ulp trigger` that names a user patches nothing: the status is 38 (`ENOSYS`), for every spelling and
every value. -/
theorem C125_user (stack : Bool) (y : Sys) (prog : Str) (l : Line) (c : Cmd) (hc : FirstCommand (prog :: l.render) c)
    (hl : l.Ok (table stack c ++ argpOpts)) (u : Str) (hu : (Key.user, some u) ∈ l.settings) (a : Arguments)
    (hr : main stack y (prog :: l.render) = .run .trigger a) : runTrigger y a = .status 38 := by
  obtain ⟨ha, -⟩ := run_wanted stack y prog l c hc hl .trigger a hr
  have hus : a.user.isSome = true := by
    rw [ha]
    have hm : u ∈ values l.settings .user := by
      simp only [values, List.mem_filterMap]
      exact ⟨_, hu, by simp⟩
    show (values l.settings .user).getLast?.isSome = true
    cases hv : values l.settings .user with
    | nil => rw [hv] at hm; simp at hm
    | cons x xs => simp [List.getLast?_cons]
  simp [runTrigger, hus, ENOSYS]

/-! ### C126: the number given is the number used -/

theorem wanted_retries (s : List (Key × Option Str)) (arg : Option Str) (t : Str)
    (h : (values s .retries).getLast? = some t) : (wanted s arg).retries = atoi t := by
  show ((values s .retries).getLast?.map atoi).getD 1 = atoi t
  rw [h]; rfl

theorem wanted_timeout (s : List (Key × Option Str)) (arg : Option Str) (t : Str)
    (h : (values s .timeout).getLast? = some t) : (wanted s arg).timeout = (strtol t).toNat := by
  show ((values s .timeout).getLast?.map fun v => (strtol v).toNat).getD 200 = (strtol t).toNat
  rw [h]; rfl

theorem wrap_small (v q : Nat) (h : v < 2 ^ 31) : (((2 ^ 32 * q + v : Nat) : Int) + 2 ^ 31) % 2 ^ 32 - 2 ^ 31 = v := by omega

/-- **C126, what holds.** A number of retries below 2³¹, written in decimal, is the number used. -/
theorem C126_retries_partial (stack : Bool) (y : Sys) (prog : Str) (l : Line) (c : Cmd) (hc : FirstCommand (prog :: l.render) c)
    (hl : l.Ok (table stack c ++ argpOpts)) (c' : Cmd) (a : Arguments) (hr : main stack y (prog :: l.render) = .run c' a)
    (n v : Nat) (hv : v < 10 ^ (n + 1)) (h31 : v < 2 ^ 31) (hlast : (values l.settings .retries).getLast? = some (dec (n + 1) v)) :
    a.retries = v := by
  obtain ⟨ha, -⟩ := run_wanted stack y prog l c hc hl c' a hr
  have := atoi_dec n v [] hv (by omega) (by simp)
  rw [List.append_nil] at this
  rw [ha, wanted_retries _ _ _ hlast, this]
  simpa using wrap_small v 0 h31

/-- **C126.** A time limit below 2⁶³ seconds, written in decimal, is the limit used; only decimal numbers are accepted. -/
theorem C126_timeout_partial (stack : Bool) (y : Sys) (prog : Str) (l : Line) (c : Cmd) (hc : FirstCommand (prog :: l.render) c)
    (hl : l.Ok (table stack c ++ argpOpts)) (c' : Cmd) (a : Arguments) (hr : main stack y (prog :: l.render) = .run c' a) :
    (∀ n v, v < 10 ^ (n + 1) → v < 2 ^ 63 → (values l.settings .timeout).getLast? = some (dec (n + 1) v) → a.timeout = v) ∧
    ∀ t ∈ values l.settings .timeout, t ≠ [] ∧ ∀ c ∈ t, 48 ≤ c ∧ c ≤ 57 := by
  obtain ⟨ha, hn⟩ := run_wanted stack y prog l c hc hl c' a hr
  refine ⟨?_, hn.2⟩
  intro n v hv h63 hlast
  have := strtol_dec n v [] hv h63 (by simp)
  rw [List.append_nil] at this
  rw [ha, wanted_timeout _ _ _ hlast, this]
  rfl

/-- **C126 is false in general.** A larger number of retries is taken modulo 2³²: it may be accepted and stand for a smaller one; and
what follows the digits is ignored. -/
theorem C126_retries_wrong (stack : Bool) (y : Sys) (prog : Str) (l : Line) (c : Cmd) (hc : FirstCommand (prog :: l.render) c)
    (hl : l.Ok (table stack c ++ argpOpts)) (c' : Cmd) (a : Arguments) (hr : main stack y (prog :: l.render) = .run c' a)
    (n v q : Nat) (junk : Str) (hj : ∀ c, junk.head? = some c → isDigit c = false) (hv : 2 ^ 32 * q + v < 10 ^ (n + 1)) (h31 : v < 2 ^ 31)
    (h63 : 2 ^ 32 * q + v < 2 ^ 63)
    (hlast : (values l.settings .retries).getLast? = some (dec (n + 1) (2 ^ 32 * q + v) ++ junk)) :
    a.retries = v := by
  obtain ⟨ha, -⟩ := run_wanted stack y prog l c hc hl c' a hr
  have := atoi_dec n (2 ^ 32 * q + v) junk hv h63 hj
  rw [ha, wanted_retries _ _ _ hlast, this]
  exact wrap_small v q h31

/-! ### Cases -/

/-- A line with joined and abbreviated options between the words. -/
def exLine : Line :=
  ⟨[.short [oQuiet] (some (oProcess, b "nginx", false)), .word (b "trigger"), .long (b "ret") oRetries (some (b "5")) true,
    .long (b "retries") oRetries (some (b "0012")) false, .short [] (some (oRetries, b "7", true)), .long (b "disable-su") ⟨b "disable-summarization", none, .noSummary, .no⟩ none false],
   some [b "-x.so"]⟩

example : exLine.render = [b "-qp", b "nginx", b "trigger", b "--ret=5", b "--retries", b "0012", b "-r7", b "--disable-su",
    b "--", b "-x.so"] := by decide +kernel

theorem exLine_ok (stack : Bool) : exLine.Ok (table stack .trigger ++ argpOpts) := by
  intro i hi
  simp [exLine] at hi
  rcases hi with rfl | rfl | rfl | rfl | rfl | rfl
  · refine ⟨by simp, by intro o ho; simp at ho; subst ho; exact ⟨by simp [table], by decide +kernel, rfl⟩, ?_⟩
    intro o v j h; cases h
    exact ⟨by simp [table], by decide +kernel, rfl, by simp⟩
  · exact Or.inr (by decide +kernel)
  · refine ⟨by simp [table], by decide +kernel, Or.inr ⟨by decide +kernel, ?_⟩, Or.inr (Or.inl ⟨rfl, rfl⟩)⟩
    cases stack <;> decide +kernel
  · exact ⟨by simp [table], by decide +kernel, Or.inl (by decide +kernel), Or.inr (Or.inl ⟨rfl, rfl⟩)⟩
  · refine ⟨by simp, by simp, ?_⟩
    intro o v j h; cases h
    exact ⟨by simp [table], by decide +kernel, rfl, by intro _; decide +kernel⟩
  · refine ⟨by simp [table], by decide +kernel, Or.inr ⟨by decide +kernel, ?_⟩, Or.inl ⟨rfl, rfl⟩⟩
    cases stack <;> decide +kernel

theorem exLine_first : FirstCommand (b "ulp" :: exLine.render) .trigger :=
  ⟨[b "ulp", b "-qp", b "nginx"], [b "--ret=5", b "--retries", b "0012", b "-r7", b "--disable-su", b "--", b "-x.so"],
    by decide +kernel, by
      intro w hw
      simp at hw
      rcases hw with rfl | rfl | rfl <;> rintro ⟨c, h⟩ <;> cases c <;> revert h <;> decide +kernel⟩

theorem exLine_noinfo : NoInfo exLine.settings := by
  have : exLine.settings.all (fun p => p.1 != .help && p.1 != .usage && p.1 != .version) = true := by decide +kernel
  intro p hp
  have := List.all_eq_true.1 this p hp
  simp at this
  exact ⟨this.1.1, this.1.2, this.2⟩

theorem exLine_correct : Correct exLine.settings exLine.words .trigger := by
  refine ⟨⟨by decide +kernel, by decide +kernel⟩, by decide +kernel, [b "-x.so"], by decide +kernel, by decide, ?_⟩
  have : libraries exLine.settings = [] := by decide +kernel
  simp only [Rules]
  rw [this]
  exact ⟨by simp, by intro x hx; simp at hx; subst hx; decide +kernel⟩

/-- The case for C121: the last `-r` counts, and `-x.so` is the argument. -/
example : main false ⟨true, none, none⟩ (b "ulp" :: exLine.render) =
    .run .trigger { process := some (b "nginx"), quiet := true, retries := 7, noSummary := true, arg := some (b "-x.so") } := by
  rw [(C121_meaning false ⟨true, none, none⟩ _ exLine .trigger exLine_first (exLine_ok false) exLine_noinfo).1 .trigger exLine_correct
    (fun _ => Or.inl rfl)]
  decide +kernel

/-- The case for C122: the same line. -/
example := (C122_own_options_partial true ⟨false, some (b "0\n"), none⟩ (b "/usr/bin/ulp") exLine .trigger
  (by rintro ⟨c, h⟩; cases c <;> revert h <;> decide +kernel)
  (by
    intro i hi v hv
    simp [exLine] at hi
    rcases hi with rfl | rfl | rfl | rfl | rfl | rfl <;> simp [Item.values] at hv <;> subst hv <;> rintro ⟨c, h⟩ <;> cases c <;>
      revert h <;> decide +kernel)
  (exLine_ok true) (by decide +kernel) exLine_noinfo).1 exLine_correct (fun _ => Or.inr (Or.inr rfl))

/-- The case for C123: an ordinary user. -/
example : main false ⟨false, some (b "1\n"), none⟩ (b "ulp" :: exLine.render) = .exit 1 ∧
    main false ⟨false, some (b "1\n"), none⟩ [b "ulp", b "dump", b "x.so"] = .run .dump { arg := some (b "x.so") } := by
  decide +kernel

/-- Options cut too short, values where none belong, unknown options. -/
example : main false ⟨true, none, none⟩ [b "ulp", b "trigger", b "--rev", b "x.so"] = .exit 64 ∧
    main false ⟨true, none, none⟩ [b "ulp", b "trigger", b "--recursive=1", b "x.so"] = .exit 64 ∧
    main false ⟨true, none, none⟩ [b "ulp", b "check", b "--timeout", b "3", b "x.so"] = .exit 64 ∧
    main false ⟨true, none, none⟩ [b "ulp", b "trigger", b "-r", b "0", b "x.so"] = .exit 64 ∧
    main false ⟨true, none, none⟩ [b "ulp", b "trigger", b "-V", b "-r", b "0"] = .exit 0 := by decide +kernel

/-- The case for C121: `--rev` may mean two options. -/
theorem exWrong : Wrong (table false .trigger ++ argpOpts) [b "--rev", b "x.so"] := by
  have : b "--rev" = [45, 45] ++ b "rev" ++ [] := by decide +kernel
  rw [this]
  refine .unknown (b "rev") [] [b "x.so"] (Or.inl rfl) (by decide +kernel) (by decide +kernel) ?_
  have h1 : oRevert ∈ table false .trigger ++ argpOpts ∧ b "rev" <+: oRevert.long := ⟨by simp [table], by decide +kernel⟩
  have h2 : (⟨b "revert-all", none, .revertAll, .required⟩ : Opt) ∈ table false .trigger ++ argpOpts ∧
      b "rev" <+: (⟨b "revert-all", none, .revertAll, .required⟩ : Opt).long := ⟨by simp [table], by decide +kernel⟩
  have h3 : ∀ o ∈ table false .trigger ++ argpOpts, b "rev" ≠ o.long := by decide +kernel
  intro o ho hn
  rcases hn with hn | ⟨_, hn⟩
  · exact h3 o ho hn
  · have := (hn _ h1.1 h1.2).trans (hn _ h2.1 h2.2).symm
    revert this
    decide +kernel

/-- The case for C124: a status file with other fields. -/
example : OtherField (b "Name:", b "ulp") ∧ OtherField (b "CapInh:", b "0000000000000000") ∧ OtherField (b "Groups:", b " ") ∧
    runTrigger ⟨false, none, some (statusFile [(b "Name:", b "ulp"), (b "Groups:", b " ")] (2 ^ 21 + 5) [(b "CapBnd:", b "0")])⟩
      { noSeccomp := true } = .go ∧
    runTrigger ⟨false, none, some (statusFile [(b "Name:", b "ulp"), (b "Groups:", b " ")] (2 ^ 22 + 5) [])⟩
      { noSeccomp := true } = .status 1 := by
  refine ⟨?_, ?_, ?_, by decide +kernel, by decide +kernel⟩ <;> exact ⟨by decide +kernel, by decide +kernel, by decide +kernel, by decide +kernel⟩

/-- The case for C125. -/
example : main false ⟨true, none, none⟩ [b "ulp", b "trigger", b "-u", b "root", b "x.so"] =
    .run .trigger { user := some (b "root"), arg := some (b "x.so") } := by decide +kernel

/-- The case for C126: 4294967299 retries are three. -/
example : dec 10 (2 ^ 32 + 3) = b "4294967299" ∧
    main false ⟨true, none, none⟩ [b "ulp", b "trigger", b "-r", b "4294967299", b "x.so"] =
      .run .trigger { retries := 3, arg := some (b "x.so") } ∧
    main false ⟨true, none, none⟩ [b "ulp", b "trigger", b "-r", b "3x", b "x.so"] =
      .run .trigger { retries := 3, arg := some (b "x.so") } := by decide +kernel

/-! ### Further cases -/

example := C121_command_named false ⟨true, none, none⟩ [b "ulp", b "dump", b "x.so"] .dump { arg := some (b "x.so") } (by decide +kernel)
theorem ulp_not_command : ¬ IsCommand (b "ulp") := by rintro ⟨c, h⟩; cases c <;> revert h <;> decide +kernel
example := C122_value_taken_for_command false ⟨true, none, none⟩ (b "ulp") ulp_not_command .post (by simp) [b "trigger", b "x.so"]
example := C122_program_taken_for_command false ⟨true, none, none⟩ .packer (by simp) [b "nginx", b "trigger", b "x.so"]
example := (C123_scope false ⟨false, some [49, 10], none⟩ (b "ulp" :: exLine.render) 49 rfl rfl).1 .trigger
  { process := some (b "nginx"), quiet := true, retries := 7, noSummary := true, arg := some (b "-x.so") } (by decide +kernel) (by simp [Attaches]) (by decide)
example := C123_free true ⟨false, none, some (b "x")⟩ (b "ulp" :: exLine.render) (.inr rfl)
example := C124_seccomp false none [(b "Name:", b "ulp"), (b "Groups:", b " ")] [(b "CapBnd:", b "0")] (2 ^ 21 + 5) (by decide)
  (by intro f hf; simp only [List.mem_cons, List.not_mem_nil, or_false] at hf
      rcases hf with rfl | rfl <;> exact ⟨by decide +kernel, by decide +kernel, by decide +kernel, by decide +kernel⟩)
  { noSeccomp := true } rfl rfl
example := C124_no_proc false none { noSeccomp := true } rfl rfl
example := C124_not_asked ⟨false, none, none⟩ { retries := 3 } rfl rfl

theorem exLine_runs : main false ⟨true, none, none⟩ (b "ulp" :: exLine.render) =
    .run .trigger { process := some (b "nginx"), quiet := true, retries := 7, noSummary := true, arg := some (b "-x.so") } := by decide +kernel

example := C126_retries_partial false ⟨true, none, none⟩ (b "ulp") exLine .trigger exLine_first (exLine_ok false) .trigger _ exLine_runs 0 7
  (by decide) (by decide) (by decide +kernel)
example := (C126_timeout_partial false ⟨true, none, none⟩ (b "ulp") exLine .trigger exLine_first (exLine_ok false) .trigger _ exLine_runs).2
example := C126_retries_wrong false ⟨true, none, none⟩ (b "ulp") exLine .trigger exLine_first (exLine_ok false) .trigger _ exLine_runs 0 7 0 []
  (by simp) (by decide) (by decide) (by decide) (by decide +kernel)

/-- `ulp trigger -u root --timeout 30 x.so` -/
def exLineUser : Line :=
  ⟨[.word (b "trigger"), .short [] (some (oUser, b "root", false)), .long (b "timeout") ⟨b "timeout", none, .timeout, .required⟩ (some (b "30")) false,
    .word (b "x.so")], none⟩

/-- `ulp check -p nginx x.so` -/
def exLineCheck : Line := ⟨[.word (b "check"), .short [] (some (oProcess, b "nginx", false)), .word (b "x.so")], none⟩

theorem exLineCheck_ok (stack : Bool) : exLineCheck.Ok (table stack .check ++ argpOpts) := by
  intro i hi
  simp [exLineCheck] at hi
  rcases hi with rfl | rfl | rfl
  · exact Or.inr (by decide +kernel)
  · refine ⟨by simp, by simp, ?_⟩
    intro o v j h; cases h
    exact ⟨by simp [table], by decide +kernel, rfl, by simp⟩
  · exact Or.inr (by decide +kernel)

theorem exLineCheck_first : FirstCommand (b "ulp" :: exLineCheck.render) .check :=
  ⟨[b "ulp"], [b "-p", b "nginx", b "x.so"], by decide +kernel, by
    intro w hw
    rw [List.mem_singleton] at hw
    subst hw
    exact ulp_not_command⟩

theorem exLineCheck_noinfo : NoInfo exLineCheck.settings := by
  have : exLineCheck.settings.all (fun p => p.1 != .help && p.1 != .usage && p.1 != .version) = true := by decide +kernel
  intro p hp
  have := List.all_eq_true.1 this p hp
  simp at this
  exact ⟨this.1.1, this.1.2, this.2⟩

example := C123_check_says_applied false (b "ulp") exLineCheck exLineCheck_first (exLineCheck_ok false) exLineCheck_noinfo

theorem exLineCheck_correct : Correct exLineCheck.settings exLineCheck.words .check := by
  refine ⟨⟨by decide +kernel, by decide +kernel⟩, by decide +kernel, [b "x.so"], by decide +kernel, by decide, ?_⟩
  simp only [Rules]
  decide +kernel
example := C123_check_says_applied false (b "ulp") exLineCheck exLineCheck_first (exLineCheck_ok false) exLineCheck_noinfo exLineCheck_correct

theorem exLineUser_ok (stack : Bool) : exLineUser.Ok (table stack .trigger ++ argpOpts) := by
  intro i hi
  simp [exLineUser] at hi
  rcases hi with rfl | rfl | rfl | rfl
  · exact Or.inr (by decide +kernel)
  · refine ⟨by simp, by simp, ?_⟩
    intro o v j h; cases h
    exact ⟨by simp [table], by decide +kernel, rfl, by simp⟩
  · exact ⟨by simp [table], by decide +kernel, Or.inl (by decide +kernel), Or.inr (Or.inl ⟨rfl, rfl⟩)⟩
  · exact Or.inr (by decide +kernel)

theorem exLineUser_first : FirstCommand (b "ulp" :: exLineUser.render) .trigger :=
  ⟨[b "ulp"], [b "-u", b "root", b "--timeout", b "30", b "x.so"], by decide +kernel, by
    intro w hw
    rw [List.mem_singleton] at hw
    subst hw
    exact ulp_not_command⟩

example := C125_user false ⟨true, none, none⟩ (b "ulp") exLineUser .trigger exLineUser_first (exLineUser_ok false) (b "root") (by decide +kernel)
  { user := some (b "root"), timeout := 30, arg := some (b "x.so") } (by decide +kernel)
example := (C126_timeout_partial false ⟨true, none, none⟩ (b "ulp") exLineUser .trigger exLineUser_first (exLineUser_ok false) .trigger
  { user := some (b "root"), timeout := 30, arg := some (b "x.so") } (by decide +kernel)).1 1 30 (by decide) (by decide) (by decide +kernel)

example := C121_wrong false ⟨true, none, none⟩ (b "ulp") [.word (b "trigger")] .trigger [b "--rev", b "x.so"]
  ⟨[b "ulp"], [b "--rev", b "x.so"], by decide +kernel, by
    intro w hw
    rw [List.mem_singleton] at hw
    subst hw
    exact ulp_not_command⟩
  (by intro i hi; rw [List.mem_singleton] at hi; subst hi; exact Or.inr (by decide +kernel)) exWrong

/-- `ulp check -q -V` -/
def exLineVersion : Line := ⟨[.word (b "check"), .short [oQuiet, ⟨b "version", some 86, .version, .no⟩] none], none⟩

example := C121_information false ⟨true, none, none⟩ (b "ulp") exLineVersion .check
  ⟨[b "ulp"], [b "-qV"], by decide +kernel, by
    intro w hw
    rw [List.mem_singleton] at hw
    subst hw
    exact ulp_not_command⟩
  (by
    intro i hi
    simp [exLineVersion] at hi
    rcases hi with rfl | rfl
    · exact Or.inr (by decide +kernel)
    · refine ⟨by simp, ?_, by simp⟩
      intro o ho
      simp only [List.mem_cons, List.not_mem_nil, or_false] at ho
      rcases ho with rfl | rfl
      · exact ⟨by simp [table], by decide +kernel, rfl⟩
      · exact ⟨List.mem_append_right _ (by simp [argpOpts, chr]), by decide +kernel, rfl⟩)
  [(.quiet, none)] [] .version none (by decide +kernel) (by intro p hp; rw [List.mem_singleton] at hp; subst hp; decide)
  ⟨by decide +kernel, by decide +kernel⟩ (.inr (.inr rfl))

end Verif.Cli
