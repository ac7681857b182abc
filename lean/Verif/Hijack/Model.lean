import Verif.Base.Err

/-!
Model of `hijack_threads` and `restore_threads` of the tools against an arbitrary multi-threaded process, as a transition
system: the process runs, starts and ends threads while the tool lists and attaches them.
-/

namespace Verif.Hijack

/-- Where `hijack_threads` is, tools/introspection.c:1472-1616. -/
inductive Pc where
  /-- In the loops over the task directory; `loop`: a new thread was found in this pass. -/
  | scan (loop : Bool)
  /-- At `children_restore`. -/
  | unwind (fatal : Bool)
  | ret (e : Err)
deriving DecidableEq, Repr

/-- Process and tool.  `R` are the contents of the registers. -/
structure St (R : Type) where
  alive : Nat → Prop
  /-- Attached by the tool (and thereby stopped). -/
  attached : Nat → Prop
  regs : Nat → R
  /-- `process->threads`. -/
  threads : List (Nat × R)
  /-- `process->all_threads_hijacked`. -/
  hijacked : Bool
  pc : Pc
  /-- Existed when this pass over the directory began, and not listed in it yet. -/
  must : Nat → Prop
  /-- Started since this pass began. -/
  young : Nat → Prop
  /-- The threads whose detaching failed at `children_restore`. -/
  failed : List Nat

/-- Change one value. -/
def set (f : Nat → Prop) (t : Nat) (p : Prop) : Nat → Prop := fun u => (u = t ∧ p) ∨ (u ≠ t ∧ f u)

/-- What may happen in a run. -/
structure May where
  /-- Threads may end while the tool attaches to the others. -/
  exits : Bool
  /-- `waitpid` may fail after a successful PTRACE_ATTACH, tools/ptrace.c:404-409. -/
  waitFails : Bool
  /-- PTRACE_DETACH may fail right after PTRACE_GETREGS failed, tools/introspection.c:1568-1569. -/
  detachFailsAfterGetregs : Bool

/-- Steps of the process and of the tool. -/
inductive Step {R : Type} (may : May) : St R → St R → Prop
  /-- A running thread starts another one. -/
  | spawn (s : St R) (u t : Nat) : s.alive u → ¬ s.attached u → ¬ s.alive t →
      Step may s { s with alive := set s.alive t True, young := set s.young t True, must := set s.must t False }
  /-- A running thread ends. -/
  | exit (s : St R) (u : Nat) : may.exits = true → s.alive u → ¬ s.attached u →
      Step may s { s with alive := set s.alive u False }
  /-- A running thread changes its registers. -/
  | run (s : St R) (u : Nat) (r : R) : s.alive u → ¬ s.attached u →
      Step may s { s with regs := fun v => if v = u then r else s.regs v }
  /-- `readdir` gives a thread that is in the list already, tools/introspection.c:1530-1532. -/
  | known (s : St R) (l : Bool) (t : Nat) : s.pc = .scan l → t ∈ s.threads.map Prod.fst →
      Step may s { s with must := set s.must t False }
  /-- A new thread: attached, registers saved, added to the list, tools/introspection.c:1543-1565. -/
  | attach (s : St R) (l : Bool) (t : Nat) : s.pc = .scan l → t ∉ s.threads.map Prod.fst → s.alive t → ¬ s.attached t →
      Step may s { s with attached := set s.attached t True, threads := (t, s.regs t) :: s.threads
                          must := set s.must t False, pc := .scan true }
  /-- A new thread, but `calloc` or PTRACE_ATTACH fails. -/
  | attachFail (s : St R) (l : Bool) (t : Nat) : s.pc = .scan l → t ∉ s.threads.map Prod.fst →
      Step may s { s with pc := .unwind false }
  /-- PTRACE_ATTACH succeeds, `waitpid` fails, and `attach` returns an error, tools/ptrace.c:406-409. -/
  | attachWaitFail (s : St R) (l : Bool) (t : Nat) : may.waitFails = true → s.pc = .scan l →
      t ∉ s.threads.map Prod.fst → s.alive t → ¬ s.attached t →
      Step may s { s with attached := set s.attached t True, pc := .unwind false }
  /-- `get_regs` fails and the thread is detached, tools/introspection.c:1568-1569. -/
  | getregsFail (s : St R) (l : Bool) (t : Nat) : s.pc = .scan l → t ∉ s.threads.map Prod.fst →
      ¬ s.attached t → Step may s { s with pc := .unwind false }
  /-- `get_regs` fails and so does detaching, which goes unnoticed. -/
  | getregsDetachFail (s : St R) (l : Bool) (t : Nat) : may.detachFailsAfterGetregs = true → s.pc = .scan l →
      t ∉ s.threads.map Prod.fst → s.alive t → ¬ s.attached t →
      Step may s { s with attached := set s.attached t True, pc := .unwind false }
  /-- `readdir` fails, tools/introspection.c:1581-1585. -/
  | readdirFail (s : St R) (l : Bool) : s.pc = .scan l → Step may s { s with pc := .unwind false }
  /-- The end of the directory: all threads that existed during all of the pass were listed.  Another pass. -/
  | again (s : St R) : s.pc = .scan true → (∀ t, s.must t → ¬ s.alive t) →
      Step may s { s with pc := .scan false, must := s.alive, young := fun _ => False }
  /-- The end of the directory, no new thread found, tools/introspection.c:1586-1592. -/
  | success (s : St R) : s.pc = .scan false → (∀ t, s.must t → ¬ s.alive t) →
      Step may s { s with pc := .ret 0, hijacked := true }
  /-- `children_restore`: detach the first thread of the list, tools/introspection.c:1599-1607. -/
  | detach (s : St R) (f : Bool) (t : Nat) (r : R) (rest : List (Nat × R)) : s.pc = .unwind f →
      s.threads = (t, r) :: rest →
      Step may s { s with attached := set s.attached t False, threads := rest }
  | detachFail (s : St R) (f : Bool) (t : Nat) (r : R) (rest : List (Nat × R)) : s.pc = .unwind f →
      s.threads = (t, r) :: rest →
      Step may s { s with threads := rest, failed := t :: s.failed, pc := .unwind true }
  | unwound (s : St R) (f : Bool) : s.pc = .unwind f → s.threads = [] →
      Step may s { s with pc := .ret (if f then ETHRDDETTACH else ETHRDATTACH) }

inductive Steps {R : Type} (may : May) (s : St R) : St R → Prop
  | refl : Steps may s s
  | tail {u v : St R} : Steps may s u → Step may u v → Steps may s v

/-- The beginning: any threads, none attached. -/
def start {R : Type} (alive : Nat → Prop) (regs : Nat → R) : St R :=
  ⟨alive, fun _ => False, regs, [], false, .scan false, alive, fun _ => False, []⟩

/-! ### restore_threads -/

/-- The part of the kernel `restore_threads` acts on. -/
structure Kern (R : Type) where
  regs : Nat → R
  attached : Nat → Prop

/-- `restore_threads`, tools/introspection.c:1841-1870.  `setOk`, `detOk` tell which ptrace requests succeed.  The second
component is `errors`. -/
def restoreThreads {R : Type} (setOk detOk : Nat → Bool) : List (Nat × R) → Kern R → Kern R × Bool
  | [], k => (k, false)
  | (t, r) :: rest, k =>
    let k := if setOk t then { k with regs := fun v => if v = t then r else k.regs v } else k
    let k := if detOk t then { k with attached := set k.attached t False } else k
    let (k, e) := restoreThreads setOk detOk rest k
    (k, e || !setOk t || !detOk t)

end Verif.Hijack
