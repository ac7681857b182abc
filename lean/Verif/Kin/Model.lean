import Mathlib.Logic.Function.Basic

/-!
# Processes that fork, share their memory, start another program or end while tools are at work

`ulp` looks at a process once (`insert_target_process`, tools/patches.c:608-629, which calls `initialize_data_structures`,
tools/introspection.c:1336-1379), and lets it run again: `initialize_data_structures` detaches at its end.  What it
keeps is the number of the process and the addresses of libpulp's variables and routines in the program it saw.  In the
listing thread (tools/patches.c:49-113) this can be long before the process is taken from the queue.  Later
`hijack_threads` (tools/introspection.c:1472-1611) stops what `/proc/<pid>/task` lists, and everything is written at the
addresses kept (`set_id_buffer` 1401-1423 and its companions, which use `process->dynobj_libpulp->metadata_buffer`).
`restore_threads` (tools/introspection.c:1841-1893) lets the process go.

What the system lets processes do meanwhile is modelled from the manual pages of fork(2), vfork(2), execve(2) and
ptrace(2):

* `fork` gives the child a copy of the memory; `vfork` (and `posix_spawn`, which uses it) gives it the same memory;
* `execve` keeps the number of the process and gives it another memory;
* a process number can be used again once its process is gone;
* a process that a tracer has stopped does nothing, but it can be killed;
* a thread has at most one tracer.

Simplifications: all threads of a process are stopped in one step (the way there is in `Verif.Hijack`), the writes of a
request are a list of bytes at distances from the one address that the tool keeps, what libpulp's own routine writes on
behalf of the tool is among them, and memory is a function of the address (no address is unmapped).  The number of a process that was killed while held is
taken to be free again only after the tool has let go of it: until then its tracer has not waited for it, or every
further request of the tool is refused by the system.
-/

namespace Verif.Kin

/-- A memory: its bytes, and where libpulp's buffer is in it (`dynobj_libpulp->metadata_buffer`,
tools/introspection.h:67-90).  A program does not move its libraries, so the address is as old as the memory. -/
structure Space where
  mem : Nat → UInt8
  buffer : Nat

/-- What a tool keeps about its request: `struct ulp_process`, tools/introspection.h:92-131.  `seen` is not in the code:
it is the memory that the tool looked at, for the statements. -/
structure Tool where
  pid : Nat
  /-- `process->dynobj_libpulp->metadata_buffer` -/
  buffer : Nat
  seen : Nat
  /-- What is still to be written, as distances from the buffer. -/
  todo : List (Nat × UInt8)
  /-- `process->all_threads_hijacked` -/
  holds : Bool

/-- The processes, the memories, the tools.  Memories from `next` on have not been used. -/
structure Sys where
  space : Nat → Space
  next : Nat
  proc : Nat → Option Nat
  tool : Nat → Option Tool

/-- Process `p` is stopped by a tool. -/
def Held (s : Sys) (p : Nat) : Prop := ∃ i t, s.tool i = some t ∧ t.holds = true ∧ t.pid = p

/-- One byte written: `write_bytes`, tools/ptrace.c:109-180. -/
def Space.poke (sp : Space) (a : Nat) (b : UInt8) : Space := { sp with mem := Function.update sp.mem a b }

/-- `initialize_data_structures`, tools/introspection.c:1336-1379: the record of process `p` with memory `m`. -/
def look (s : Sys) (p m : Nat) (ws : List (Nat × UInt8)) : Tool :=
  { pid := p, buffer := (s.space m).buffer, seen := m, todo := ws, holds := false }

/-- fork(2) of a process with memory `m`: the child `q` gets a copy of the memory. -/
def forked (s : Sys) (m q : Nat) : Sys :=
  { s with space := Function.update s.space s.next (s.space m), next := s.next + 1,
           proc := Function.update s.proc q (some s.next) }

/-- vfork(2) of a process with memory `m`: the child `q` has the same memory. -/
def vforked (s : Sys) (m q : Nat) : Sys := { s with proc := Function.update s.proc q (some m) }

/-- Process `p` starts the program `sp`: execve(2), or a process that comes up under the number `p`. -/
def started (s : Sys) (p : Nat) (sp : Space) : Sys :=
  { s with space := Function.update s.space s.next sp, next := s.next + 1,
           proc := Function.update s.proc p (some s.next) }

/-- Process `p` is gone. -/
def gone (s : Sys) (p : Nat) : Sys := { s with proc := Function.update s.proc p none }

/-- Tool `i` is now in state `t`. -/
def setTool (s : Sys) (i : Nat) (t : Option Tool) : Sys := { s with tool := Function.update s.tool i t }

/-- The memory `m` is now `sp`. -/
def setSpace (s : Sys) (m : Nat) (sp : Space) : Sys := { s with space := Function.update s.space m sp }

/-- What processes may do besides running and forking. -/
structure May where
  shares : Bool
  execs : Bool
  ends : Bool

/-- One step of the system. -/
inductive Step (may : May) : Sys → Sys → Prop where
  /-- A process that runs changes its memory. -/
  | own {s p m mem} : s.proc p = some m → ¬ Held s p → Step may s (setSpace s m { s.space m with mem := mem })
  | fork {s p m q} : s.proc p = some m → ¬ Held s p → s.proc q = none → ¬ Held s q → Step may s (forked s m q)
  /-- Other threads of the parent run on. -/
  | vfork {s p m q} : may.shares = true → s.proc p = some m → ¬ Held s p → s.proc q = none → ¬ Held s q →
      Step may s (vforked s m q)
  | exec {s p m sp} : may.execs = true → s.proc p = some m → ¬ Held s p → Step may s (started s p sp)
  /-- The process ends, or is killed, also while it is held. -/
  | leave {s p m} : may.ends = true → s.proc p = some m → Step may s (gone s p)
  /-- A process of another family comes up under a free number. -/
  | born {s q sp} : s.proc q = none → ¬ Held s q → Step may s (started s q sp)
  /-- A tool looks at process `p` (tools/patches.c:608-629) for a request with the writes `ws`. -/
  | look {s i p m ws} : s.tool i = none → s.proc p = some m → Step may s (setTool s i (some (look s p m ws)))
  /-- `hijack_threads`, tools/introspection.c:1472-1611; a second tracer is refused. -/
  | hold {s i t m} : s.tool i = some t → t.holds = false → s.proc t.pid = some m → ¬ Held s t.pid →
      Step may s (setTool s i (some { t with holds := true }))
  /-- A write at the address kept, into the memory that the process has now. -/
  | write {s i t m o b ws} : s.tool i = some t → t.holds = true → t.todo = (o, b) :: ws → s.proc t.pid = some m →
      Step may s (setTool (setSpace s m ((s.space m).poke (t.buffer + o) b)) i (some { t with todo := ws }))
  /-- `restore_threads`, tools/introspection.c:1841-1893, when all is written or the process is gone. -/
  | release {s i t} : s.tool i = some t → t.holds = true → (t.todo = [] ∨ s.proc t.pid = none) →
      Step may s (setTool s i none)
  /-- `hijack_threads` fails: the tool gives up. -/
  | giveUp {s i t} : s.tool i = some t → t.holds = false → Step may s (setTool s i none)

/-- Any number of steps. -/
inductive Steps (may : May) : Sys → Sys → Prop where
  | refl {s} : Steps may s s
  | tail {s t u} : Steps may s t → Step may t u → Steps may s u

end Verif.Kin
