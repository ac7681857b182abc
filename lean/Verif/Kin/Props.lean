import Verif.Kin.Lemmas

/-!
# C176, C177, C178: the program that was looked at, the process that was asked for, the memory of a child
-/

namespace Verif.Kin

/-- Two processes for the examples: 10 with memory 0, where libpulp's buffer is at 4096, and 20 with memory 1. -/
def duo : Sys where
  space := fun m => if m = 0 then ⟨fun _ => 0, 4096⟩ else ⟨fun _ => 7, 8192⟩
  next := 2
  proc := fun p => if p = 10 then some 0 else if p = 20 then some 1 else none
  tool := fun _ => none

theorem duo_quiet : Quiet duo := by
  constructor
  · intro i; rfl
  · intro p m; simp only [duo]; grind
  · intro p q m; simp only [duo]; grind

/-- A request of two bytes to process 10, which the tool has stopped; one byte is written. -/
def duoAt : Sys :=
  { duo with
    space := Function.update duo.space 0 ((duo.space 0).poke 4096 1)
    tool := Function.update duo.tool 3
      (some { pid := 10, buffer := 4096, seen := 0, todo := [(1, 2)], holds := true }) }

theorem duoAt_steps (may : May) : Steps may duo duoAt := by
  have a := Step.look (may := may) (s := duo) (i := 3) (p := 10) (m := 0) (ws := [(0, 1), (1, 2)]) rfl rfl
  have hn : ¬ Held (setTool duo 3 (some (look duo 10 0 [(0, 1), (1, 2)]))) 10 := by
    rintro ⟨j, t, e1, e2, e3⟩
    simp only [setTool, upd, duo] at e1
    grind [look]
  have b := Step.hold (may := may) (s := setTool duo 3 (some (look duo 10 0 [(0, 1), (1, 2)]))) (i := 3)
    (t := look duo 10 0 [(0, 1), (1, 2)]) (m := 0) (by simp [setTool]) rfl rfl hn
  have c := Step.write (may := may)
    (s := setTool (setTool duo 3 (some (look duo 10 0 [(0, 1), (1, 2)]))) 3
      (some { look duo 10 0 [(0, 1), (1, 2)] with holds := true })) (i := 3)
    (t := { look duo 10 0 [(0, 1), (1, 2)] with holds := true }) (m := 0) (o := 0) (b := 1) (ws := [(1, 2)])
    (by simp [setTool]) rfl rfl rfl
  have e : setTool (setSpace (setTool (setTool duo 3 (some (look duo 10 0 [(0, 1), (1, 2)]))) 3
      (some { look duo 10 0 [(0, 1), (1, 2)] with holds := true })) 0 ((duo.space 0).poke (4096 + 0) 1)) 3
      (some { look duo 10 0 [(0, 1), (1, 2)] with holds := true, todo := [(1, 2)] }) = duoAt := by
    simp [setTool, setSpace, duoAt, look, duo]
  exact e ▸ Steps.tail (Steps.tail (Steps.tail Steps.refl a) b) c

theorem duoAt_held : Held duoAt 10 :=
  ⟨3, { pid := 10, buffer := 4096, seen := 0, todo := [(1, 2)], holds := true }, by simp [duoAt], rfl, rfl⟩

theorem duoAt_runs : ¬ Held duoAt 20 := by
  rintro ⟨j, t, e1, e2, e3⟩
  simp only [duoAt, upd, duo] at e1
  grind

/-! ### C176 -/

/-- **C176 (partial).**  As long as no process starts another program and none ends, every tool has to do with the very
memory it looked at, and the address it kept is the right one there. -/
theorem C176_same_program_partial (may : May) (he : may.execs = false) (hl : may.ends = false) (s0 s : Sys)
    (q : Quiet s0) (st : Steps may s0 s) (i : Nat) (t : Tool) (ht : s.tool i = some t) :
    s.proc t.pid = some t.seen ∧ t.buffer = (s.space t.seen).buffer := by
  have := fresh_steps he hl q.fresh st
  exact ⟨this.same i t ht, this.base i t ht⟩

example : duoAt.proc 10 = some 0 ∧ 4096 = (duoAt.space 0).buffer :=
  C176_same_program_partial ⟨true, false, false⟩ rfl rfl duo duoAt duo_quiet (duoAt_steps _) 3
    { pid := 10, buffer := 4096, seen := 0, todo := [(1, 2)], holds := true } (by simp [duoAt])

/-- **C176.**  From the moment the process is stopped, it is the same program until the tool lets go or the process is
gone, whatever else happens. -/
theorem C176_while_held (may : May) (s s' : Sys) (st : Step may s s') (i : Nat) (t t' : Tool) (m : Nat)
    (ht : s.tool i = some t) (hh : t.holds = true) (hp : s.proc t.pid = some m) (ht' : s'.tool i = some t') :
    t'.pid = t.pid ∧ t'.holds = true ∧ (s'.proc t.pid = some m ∨ s'.proc t.pid = none) := by
  have hheld : Held s t.pid := ⟨i, t, ht, hh, rfl⟩
  cases st with
  | own => grind [setSpace]
  | fork => simp only [forked, upd] at *; grind
  | vfork => simp only [vforked, upd] at *; grind
  | exec h1 h2 h3 => simp only [started, upd] at *; grind
  | leave => simp only [gone, upd] at *; grind
  | born => simp only [started, upd] at *; grind
  | look => simp only [setTool, upd] at *; grind
  | hold => simp only [setTool, upd] at *; grind
  | write => simp only [setTool, setSpace, upd] at *; grind
  | release => simp only [setTool, upd] at *; grind
  | giveUp => simp only [setTool, upd] at *; grind

/-- Process 20 starts another program while 10 is held: 10 is what it was. -/
example : (started duoAt 20 ⟨fun _ => 9, 0⟩).proc 10 = some 0 ∨ (started duoAt 20 ⟨fun _ => 9, 0⟩).proc 10 = none :=
  (C176_while_held ⟨false, true, true⟩ duoAt _ (Step.exec (p := 20) (m := 1) rfl rfl duoAt_runs) 3
    { pid := 10, buffer := 4096, seen := 0, todo := [(1, 2)], holds := true }
    { pid := 10, buffer := 4096, seen := 0, todo := [(1, 2)], holds := true } 0 (by simp [duoAt]) rfl rfl
    (by simp [started, duoAt])).2.2

/-- The three steps of a request of one byte. -/
theorem one_byte (may : May) (s : Sys) (i : Nat) (t : Tool) (m o : Nat) (b : UInt8) (ht : s.tool i = some t)
    (hh : t.holds = false) (hw : t.todo = [(o, b)]) (hp : s.proc t.pid = some m) (hn : ¬ Held s t.pid) :
    ∃ s', Steps may s s' ∧ s'.proc = s.proc ∧
      (s'.space m).mem = Function.update (s.space m).mem (t.buffer + o) b := by
  have a := Step.hold (may := may) ht hh hp hn
  have c := Step.write (may := may) (s := setTool s i (some { t with holds := true })) (i := i)
    (t := { t with holds := true }) (m := m) (o := o) (b := b) (ws := []) (by simp [setTool]) rfl hw hp
  refine ⟨_, Steps.tail (Steps.tail Steps.refl a) c, rfl, ?_⟩
  simp [setTool, setSpace, Space.poke]

/-- **C176.**  False of the tool when a process starts another program after the tool has looked at it: whatever the
process, and whatever the program it starts, the tool writes into the new program, at the address that it kept from the
old one. -/
theorem C176_other_program (s0 : Sys) (q : Quiet s0) (p m : Nat) (hp : s0.proc p = some m) (sp : Space) (o : Nat)
    (b : UInt8) :
    ∃ s, Steps ⟨false, true, false⟩ s0 s ∧
      memOf s p = some (Function.update sp.mem ((s0.space m).buffer + o) b) := by
  have a := Step.look (may := ⟨false, true, false⟩) (s := s0) (i := 0) (ws := [(o, b)]) (q.noTool 0) hp
  have hn : ∀ x, ¬ Held (setTool s0 0 (some (look s0 p m [(o, b)]))) x := by
    rintro x ⟨i, t, h1, h2, h3⟩
    simp only [setTool, upd] at h1
    grind [look, Quiet]
  have c := Step.exec (may := ⟨false, true, false⟩) (s := setTool s0 0 (some (look s0 p m [(o, b)]))) (p := p) (m := m)
    (sp := sp) rfl hp (hn p)
  obtain ⟨s', h1, h2, h3⟩ := one_byte ⟨false, true, false⟩
    (started (setTool s0 0 (some (look s0 p m [(o, b)]))) p sp) 0 (look s0 p m [(o, b)]) s0.next o b
    (by simp [started, setTool]) rfl rfl (by simp [started, setTool, look]) (hn _)
  refine ⟨s', ?_, ?_⟩
  · have pre := Steps.tail (Steps.tail Steps.refl a) c
    clear h2 h3
    induction h1 with
    | refl => exact pre
    | tail _ b ih => exact Steps.tail ih b
  · simp only [memOf, h2]
    have : (started (setTool s0 0 (some (look s0 p m [(o, b)]))) p sp).proc p = some s0.next := by
      simp [started, setTool]
    simp only [this, Option.map_some, h3]
    simp [started, setTool, look]

/-- Process 10 becomes a program full of 9s: there is a 1 at the address 4096 of it, which means nothing there. -/
example : ∃ s, Steps ⟨false, true, false⟩ duo s ∧ memOf s 10 = some (Function.update (fun _ => 9) 4096 1) :=
  C176_other_program duo duo_quiet 10 0 rfl ⟨fun _ => 9, 77⟩ 0 1

/-- **C176.**  The same when the process ends and its number is used again: a process that the tool has never looked
at, of whatever program, is written to. -/
theorem C176_other_process (s0 : Sys) (q : Quiet s0) (p m : Nat) (hp : s0.proc p = some m) (sp : Space) (o : Nat)
    (b : UInt8) :
    ∃ s, Steps ⟨false, false, true⟩ s0 s ∧
      memOf s p = some (Function.update sp.mem ((s0.space m).buffer + o) b) := by
  have a := Step.look (may := ⟨false, false, true⟩) (s := s0) (i := 0) (ws := [(o, b)]) (q.noTool 0) hp
  have hn : ∀ x, ¬ Held (setTool s0 0 (some (look s0 p m [(o, b)]))) x := by
    rintro x ⟨i, t, h1, h2, h3⟩
    simp only [setTool, upd] at h1
    grind [look, Quiet]
  have c := Step.leave (may := ⟨false, false, true⟩) (s := setTool s0 0 (some (look s0 p m [(o, b)]))) (p := p) (m := m)
    rfl hp
  have d := Step.born (may := ⟨false, false, true⟩) (s := gone (setTool s0 0 (some (look s0 p m [(o, b)]))) p) (q := p)
    (sp := sp) (by simp [gone]) (hn p)
  obtain ⟨s', h1, h2, h3⟩ := one_byte ⟨false, false, true⟩
    (started (gone (setTool s0 0 (some (look s0 p m [(o, b)]))) p) p sp) 0 (look s0 p m [(o, b)]) s0.next o b
    (by simp [started, gone, setTool]) rfl rfl (by simp [started, gone, setTool, look]) (hn _)
  refine ⟨s', ?_, ?_⟩
  · have pre := Steps.tail (Steps.tail (Steps.tail Steps.refl a) c) d
    clear h2 h3
    induction h1 with
    | refl => exact pre
    | tail _ b ih => exact Steps.tail ih b
  · simp only [memOf, h2]
    have : (started (gone (setTool s0 0 (some (look s0 p m [(o, b)]))) p) p sp).proc p = some s0.next := by
      simp [started, gone, setTool]
    simp only [this, Option.map_some, h3]
    simp [started, gone, setTool, look]

example : ∃ s, Steps ⟨false, false, true⟩ duo s ∧ memOf s 10 = some (Function.update (fun _ => 9) 4097 1) :=
  C176_other_process duo duo_quiet 10 0 rfl ⟨fun _ => 9, 77⟩ 1 1

/-! ### C177 -/

/-- **C177 (partial).**  As long as no two processes share a memory: a step of a tool changes the memory of no process
but the one the tool has stopped. -/
theorem C177_only_asked_partial (may : May) (hm : may.shares = false) (s0 s s' : Sys) (q : Quiet s0)
    (st : Steps may s0 s) (step : Step may s s') (acts : s'.tool ≠ s.tool) (p : Nat) (hp : ¬ Held s p) :
    memOf s' p = memOf s p := by
  have ap := apart_steps hm q.toApart st
  cases step with
  | own => exact absurd rfl acts
  | fork => exact absurd rfl acts
  | vfork => exact absurd rfl acts
  | exec => exact absurd rfl acts
  | leave => exact absurd rfl acts
  | born => exact absurd rfl acts
  | look => rfl
  | hold => rfl
  | @write i t m o b ws h1 h2 h3 h4 =>
    have hne : p ≠ t.pid := fun e => hp ⟨i, t, h1, h2, e.symm⟩
    simp only [memOf, setTool, setSpace]
    cases hpm : s.proc p with
    | none => rfl
    | some m' =>
      have : m' ≠ m := fun e => hne (ap.apart p t.pid m (e ▸ hpm) h4)
      simp [this]
  | release => rfl
  | giveUp => rfl

/-- The second byte of the request to process 10: process 20 is as before. -/
example : memOf (setTool (setSpace duoAt 0 ((duoAt.space 0).poke 4097 2)) 3
      (some { pid := 10, buffer := 4096, seen := 0, todo := [], holds := true })) 20 = some (fun _ => 7) := by
  rw [C177_only_asked_partial ⟨false, true, true⟩ rfl duo duoAt _ duo_quiet (duoAt_steps _)
    (Step.write (t := { pid := 10, buffer := 4096, seen := 0, todo := [(1, 2)], holds := true }) (o := 1) (b := 2)
      (by simp [duoAt]) rfl rfl rfl)
    (fun e => by have := congrFun e 3; simp [setTool, setSpace, duoAt] at this) 20 duoAt_runs]
  simp [memOf, duoAt, duo]

/-- **C177 (partial).**  And a process that is stopped changes by the writes of its tool alone: in any step its memory is
as before, or one byte is written, the next one of the request of the tool that has stopped it, or the process is
gone. -/
theorem C177_held_changes_partial (may : May) (hm : may.shares = false) (s0 s s' : Sys) (q : Quiet s0)
    (st : Steps may s0 s) (step : Step may s s') (i : Nat) (t : Tool) (ht : s.tool i = some t) (hh : t.holds = true)
    (mem : Nat → UInt8) (hp : memOf s t.pid = some mem) :
    memOf s' t.pid = some mem ∨ memOf s' t.pid = none ∨
      ∃ o b ws, t.todo = (o, b) :: ws ∧ s'.tool i = some { t with todo := ws } ∧
        memOf s' t.pid = some (Function.update mem (t.buffer + o) b) := by
  have ap := apart_steps hm q.toApart st
  have on := oneHolder_steps q.oneHolder st
  have hheld : Held s t.pid := ⟨i, t, ht, hh, rfl⟩
  obtain ⟨m, hpm, rfl⟩ : ∃ m, s.proc t.pid = some m ∧ (s.space m).mem = mem := by
    simp only [memOf, Option.map_eq_some_iff] at hp; exact hp
  have hlt := ap.known _ _ hpm
  cases step with
  | @own p m' _ h1 h2 =>
    left
    have : m ≠ m' := fun e => h2 (ap.apart p t.pid m (e ▸ h1) hpm ▸ hheld)
    simp [memOf, setSpace, hpm, this]
  | @fork p m' c h1 h2 h3 h4 =>
    left
    have e1 : t.pid ≠ c := fun e => h4 (e ▸ hheld)
    have e2 : m ≠ s.next := by omega
    simp [memOf, forked, hpm, e1, e2]
  | vfork h1 => simp [hm] at h1
  | @exec p m' sp h0 h1 h2 =>
    left
    have e1 : t.pid ≠ p := fun e => h2 (e ▸ hheld)
    have e2 : m ≠ s.next := by omega
    simp [memOf, started, hpm, e1, e2]
  | @leave p m' h0 h1 =>
    by_cases e : t.pid = p
    · right; left; simp [memOf, gone, e]
    · left; simp [memOf, gone, hpm, e]
  | @born c sp h1 h2 =>
    left
    have e1 : t.pid ≠ c := fun e => h2 (e ▸ hheld)
    have e2 : m ≠ s.next := by omega
    simp [memOf, started, hpm, e1, e2]
  | look => left; simp [memOf, setTool, hpm]
  | hold => left; simp [memOf, setTool, hpm]
  | @write j u m' o b ws h1 h2 h3 h4 =>
    by_cases e : u.pid = t.pid
    · have ej : j = i := on j i u t h1 ht h2 hh e
      subst ej
      rw [ht] at h1; cases h1
      rw [hpm] at h4; cases h4
      right; right
      exact ⟨o, b, ws, h3, by simp [setTool], by simp [memOf, setTool, setSpace, Space.poke, hpm]⟩
    · left
      have : m ≠ m' := fun e' => e (ap.apart u.pid t.pid m (e' ▸ h4) hpm)
      simp [memOf, setTool, setSpace, hpm, this]
  | release => left; simp [memOf, setTool, hpm]
  | giveUp => left; simp [memOf, setTool, hpm]

/-- Process 10 is killed while it is held. -/
example := C177_held_changes_partial ⟨false, true, true⟩ rfl duo duoAt _ duo_quiet (duoAt_steps _)
  (Step.leave (p := 10) (m := 0) rfl rfl) 3 { pid := 10, buffer := 4096, seen := 0, todo := [(1, 2)], holds := true }
  (by simp [duoAt]) rfl (Function.update (fun _ => 0) 4096 1) (by simp [memOf, duoAt, duo, Space.poke])

/-- The states on the way of a request to the child of a vfork. -/
theorem shared_run (s0 : Sys) (q : Quiet s0) (p m c i : Nat) (hp : s0.proc p = some m) (hc : s0.proc c = none)
    (ws : List (Nat × UInt8)) :
    ∃ s, Steps ⟨true, false, false⟩ s0 s ∧ s.space = s0.space ∧ s.proc = Function.update s0.proc c (some m) ∧
      s.tool = Function.update s0.tool i
        (some { pid := c, buffer := (s0.space m).buffer, seen := m, todo := ws, holds := true }) := by
  have a := Step.vfork (may := ⟨true, false, false⟩) (s := s0) (p := p) (m := m) (q := c) rfl hp (q.notHeld p) hc
    (q.notHeld c)
  have b := Step.look (may := ⟨true, false, false⟩) (s := vforked s0 m c) (i := i) (p := c) (m := m) (ws := ws)
    (q.noTool i) (by simp [vforked])
  have hn : ¬ Held (setTool (vforked s0 m c) i (some (look (vforked s0 m c) c m ws))) c := by
    rintro ⟨j, t, h1, h2, h3⟩
    simp only [setTool, vforked, upd] at h1
    grind [look, Quiet]
  have d := Step.hold (may := ⟨true, false, false⟩) (s := setTool (vforked s0 m c) i (some (look (vforked s0 m c) c m ws)))
    (i := i) (t := look (vforked s0 m c) c m ws) (m := m) (by simp [setTool]) rfl (by simp [setTool, vforked, look]) hn
  refine ⟨_, Steps.tail (Steps.tail (Steps.tail Steps.refl a) b) d, rfl, rfl, ?_⟩
  simp [setTool, vforked, look]

/-- **C177.**  False of the tool for a process and its child by vfork: a request to the child writes into the memory of
the parent, which nobody has stopped. -/
theorem C177_parent_written (s0 : Sys) (q : Quiet s0) (p m c : Nat) (hp : s0.proc p = some m) (hc : s0.proc c = none)
    (o : Nat) (b : UInt8) :
    ∃ s s', Steps ⟨true, false, false⟩ s0 s ∧ Step ⟨true, false, false⟩ s s' ∧ s'.tool ≠ s.tool ∧ ¬ Held s p ∧
      memOf s p = some (s0.space m).mem ∧
      memOf s' p = some (Function.update (s0.space m).mem ((s0.space m).buffer + o) b) := by
  obtain ⟨s, h1, h2, h3, h4⟩ := shared_run s0 q p m c 0 hp hc [(o, b)]
  have hpc : p ≠ c := fun e => by rw [e, hc] at hp; simp at hp
  have w := Step.write (may := ⟨true, false, false⟩) (s := s) (i := 0)
    (t := { pid := c, buffer := (s0.space m).buffer, seen := m, todo := [(o, b)], holds := true }) (m := m) (o := o)
    (b := b) (ws := []) (by simp [h4]) rfl rfl (by simp [h3])
  refine ⟨s, _, h1, w, ?_, ?_, ?_, ?_⟩
  · intro e
    have := congrFun e 0
    simp [setTool, setSpace, h4] at this
  · rintro ⟨j, t, e1, e2, e3⟩
    simp only [h4, upd] at e1
    grind [Quiet]
  · simp [memOf, h3, h2, hpc, hp]
  · simp [memOf, setTool, setSpace, Space.poke, h2, h3, hpc, hp]

example := C177_parent_written duo duo_quiet 10 0 11 rfl rfl 3 1

/-! ### C178 -/

/-- **C178 (partial).**  As long as no two processes share a memory: while a process runs, no tool is at work in its
memory. -/
theorem C178_running_partial (may : May) (hm : may.shares = false) (s0 s : Sys) (q : Quiet s0) (st : Steps may s0 s)
    (p m : Nat) (hp : s.proc p = some m) (hr : ¬ Held s p) (i : Nat) : ¬ AtWork s i m := by
  rintro ⟨t, h1, h2, h3⟩
  exact hr ⟨i, t, h1, h2, (apart_steps hm q.toApart st).apart _ _ _ h3 hp⟩

example : ¬ AtWork duoAt 3 1 :=
  C178_running_partial ⟨false, true, true⟩ rfl duo duoAt duo_quiet (duoAt_steps _) 20 1 rfl duoAt_runs 3

/-- **C178 (partial).**  And in no memory are two tools at work. -/
theorem C178_one_tool_partial (may : May) (hm : may.shares = false) (s0 s : Sys) (q : Quiet s0) (st : Steps may s0 s)
    (i j m : Nat) (hi : AtWork s i m) (hj : AtWork s j m) : i = j := by
  obtain ⟨t, h1, h2, h3⟩ := hi
  obtain ⟨u, g1, g2, g3⟩ := hj
  exact oneHolder_steps q.oneHolder st i j t u h1 g1 h2 g2 ((apart_steps hm q.toApart st).apart _ _ _ h3 g3)

example : AtWork duoAt 3 0 := ⟨_, by simp [duoAt]; rfl, rfl, rfl⟩

/-- **C178 (partial).**  A child by fork starts with the memory of its parent, in which no tool is at work, so that no
request is in it in part; and no tool is at work in the child's. -/
theorem C178_child_partial (may : May) (hm : may.shares = false) (s0 s : Sys) (q : Quiet s0) (st : Steps may s0 s)
    (p m c : Nat) (hp : s.proc p = some m) (hr : ¬ Held s p) (hc : s.proc c = none) (hh : ¬ Held s c) (i : Nat) :
    memOf (forked s m c) c = memOf s p ∧ memOf (forked s m c) p = memOf s p ∧ ¬ AtWork s i m ∧
      (forked s m c).proc c = some s.next ∧ ¬ AtWork (forked s m c) i s.next := by
  have ap := apart_steps hm q.toApart st
  have hpc : p ≠ c := fun e => by rw [e, hc] at hp; simp at hp
  have hlt := ap.known _ _ hp
  have hne : m ≠ s.next := by omega
  refine ⟨by simp [memOf, forked, hp], by simp [memOf, forked, hp, hpc, hne],
    C178_running_partial may hm s0 s q st p m hp hr i, by simp [forked], ?_⟩
  exact C178_running_partial may hm s0 _ q (Steps.tail st (Step.fork hp hr hc hh)) c s.next (by simp [forked]) hh i

/-- Process 20 forks while process 10 is held. -/
example : memOf (forked duoAt 1 21) 21 = memOf duoAt 20 :=
  (C178_child_partial ⟨false, true, true⟩ rfl duo duoAt duo_quiet (duoAt_steps _) 20 1 21 rfl duoAt_runs rfl
    (by rintro ⟨j, t, e1, e2, e3⟩; simp only [duoAt, upd, duo] at e1; grind) 0).1

/-- **C178 (partial).**  What happens to the child afterwards does not reach the parent and the other way round: they
have different memories for as long as both are there. -/
theorem C178_apart_partial (may : May) (hm : may.shares = false) (s0 s : Sys) (q : Quiet s0) (st : Steps may s0 s)
    (p c m m' : Nat) (hne : p ≠ c) (hp : s.proc p = some m) (hc : s.proc c = some m') : m ≠ m' := by
  intro e
  exact hne ((apart_steps hm q.toApart st).apart _ _ _ hp (e ▸ hc))

example : (0 : Nat) ≠ 1 :=
  C178_apart_partial ⟨false, true, true⟩ rfl duo duoAt duo_quiet (duoAt_steps _) 10 20 0 1 (by decide) rfl rfl

/-- **C178.**  False of the tool for a process and its child by vfork: the parent runs while a request to the child is
written in part, the first of its bytes and not the second. -/
theorem C178_parent_runs (s0 : Sys) (q : Quiet s0) (p m c : Nat) (hp : s0.proc p = some m) (hc : s0.proc c = none)
    (o o' : Nat) (b b' : UInt8) (ho : o ≠ o') :
    ∃ s t, Steps ⟨true, false, false⟩ s0 s ∧ ¬ Held s p ∧ s.tool 0 = some t ∧ AtWork s 0 m ∧ t.todo = [(o', b')] ∧
      memOf s p = some (Function.update (s0.space m).mem ((s0.space m).buffer + o) b) := by
  obtain ⟨s, h1, h2, h3, h4⟩ := shared_run s0 q p m c 0 hp hc [(o, b), (o', b')]
  have hpc : p ≠ c := fun e => by rw [e, hc] at hp; simp at hp
  have w := Step.write (may := ⟨true, false, false⟩) (s := s) (i := 0)
    (t := { pid := c, buffer := (s0.space m).buffer, seen := m, todo := [(o, b), (o', b')], holds := true }) (m := m)
    (o := o) (b := b) (ws := [(o', b')]) (by simp [h4]) rfl rfl (by simp [h3])
  refine ⟨_, _, Steps.tail h1 w, ?_, by simp [setTool]; rfl, ?_, rfl, ?_⟩
  · rintro ⟨j, t, e1, e2, e3⟩
    simp only [setTool, setSpace, h4, upd] at e1
    grind [Quiet]
  · exact ⟨_, by simp [setTool]; rfl, rfl, by simp [setTool, setSpace, h3]⟩
  · simp [memOf, setTool, setSpace, Space.poke, h2, h3, hpc, hp]

example := C178_parent_runs duo duo_quiet 10 0 11 rfl rfl 0 1 5 6 (by decide)

/-- **C178.**  And two tools, one that has stopped the parent and one that has stopped the child, are at work in the one
memory. -/
theorem C178_two_tools (s0 : Sys) (q : Quiet s0) (p m c : Nat) (hp : s0.proc p = some m) (hc : s0.proc c = none) :
    ∃ s, Steps ⟨true, false, false⟩ s0 s ∧ AtWork s 0 m ∧ AtWork s 1 m := by
  obtain ⟨s, h1, h2, h3, h4⟩ := shared_run s0 q p m c 0 hp hc []
  have hpc : p ≠ c := fun e => by rw [e, hc] at hp; simp at hp
  have a := Step.look (may := ⟨true, false, false⟩) (s := s) (i := 1) (p := p) (m := m) (ws := [])
    (by simp [h4, q.noTool 1]) (by simp [h3, hpc, hp])
  have hn : ¬ Held (setTool s 1 (some (look s p m []))) p := by
    rintro ⟨j, t, e1, e2, e3⟩
    simp only [setTool, h4, upd] at e1
    grind [look, Quiet]
  have b := Step.hold (may := ⟨true, false, false⟩) (s := setTool s 1 (some (look s p m []))) (i := 1)
    (t := look s p m []) (m := m) (by simp [setTool]) rfl (by simp [setTool, look, h3, hpc, hp]) hn
  refine ⟨_, Steps.tail (Steps.tail h1 a) b, ?_, ?_⟩
  · exact ⟨_, by simp [setTool, h4]; rfl, rfl, by simp [setTool, h3]⟩
  · exact ⟨_, by simp [setTool]; rfl, rfl, by simp [setTool, look, h3, hpc, hp]⟩

example : ∃ s, Steps ⟨true, false, false⟩ duo s ∧ AtWork s 0 0 ∧ AtWork s 1 0 :=
  C178_two_tools duo duo_quiet 10 0 11 rfl rfl

end Verif.Kin
