/-!
Model of lib/arch/powerpc64le/ulp_prologue.S (the trampoline through which livepatched functions are called) and of
`ulp_stack_helper` (lib/arch/powerpc64le/patch.c:266-322), instruction by instruction.

Simplifications.  Registers and memory cells hold integers; the memory is addressed by doublewords (all accesses of this code
are aligned to 8 bytes: the machine's stack, the thread's `ulp_stack` and the mapped buffer are aligned, and the address of
the new function lies 8 bytes before the function).  The sequences that only compute a constant address (`lis`/`ori`/`rldimi`,
`addis`/`addi` of the TOC) are one instruction `la`.  Branches are the structure of the definitions.  `__tls_get_addr` is
what the ABI lets a called function do.
-/

namespace Verif.Ppc

/-- Registers r0-r31, the link and count registers, and the memory. -/
structure St where
  r : Nat → Int
  lr : Int
  ctr : Int
  mem : Int → Int

/-- The instructions of the trampoline. -/
inductive Ins
  | std (rs : Nat) (off : Int) (ra : Nat)
  | ld (rt : Nat) (off : Int) (ra : Nat)
  | addi (rt ra : Nat) (imm : Int)
  | add (rt ra rb : Nat)
  | la (rt : Nat) (addr : Int)
  | mflr (rt : Nat)
  | mtlr (rs : Nat)
  | mfctr (rt : Nat)
  | mtctr (rs : Nat)
  | bl (next : Int)

def St.set (s : St) (i : Nat) (v : Int) : St := { s with r := fun j => if j = i then v else s.r j }
def St.store (s : St) (a v : Int) : St := { s with mem := fun b => if b = a then v else s.mem b }

/-- Power ISA semantics of one instruction. -/
def step (s : St) : Ins → St
  | .std rs off ra => s.store (s.r ra + off) (s.r rs)
  | .ld rt off ra => s.set rt (s.mem (s.r ra + off))
  | .addi rt ra imm => s.set rt (s.r ra + imm)
  | .add rt ra rb => s.set rt (s.r ra + s.r rb)
  | .la rt v => s.set rt v
  | .mflr rt => s.set rt s.lr
  | .mtlr rs => { s with lr := s.r rs }
  | .mfctr rt => s.set rt s.ctr
  | .mtctr rs => { s with ctr := s.r rs }
  | .bl next => { s with lr := next }

def run (l : List Ins) (s : St) : St := l.foldl step s

/-- A thread: the address of its `ulp_stack`, the bounds of its machine stack, addresses in libpulp, the page size. -/
structure Env where
  ulp : Int
  lo : Int
  hi : Int
  toc : Int
  tlsArg : Int
  tramp : Int
  pg : Int

/-- The prologue written before the function at `f`, and the trampoline up to `bl __tls_get_addr`;
lib/arch/powerpc64le/ulp_prologue.S, `ulp_prologue` and lines 46-82.  `.prologue_load_pc` is at `f - 12`, the address of the
new function 4 bytes further on. -/
def seg1 (E : Env) (f : Int) : List Ins :=
  [.std 5 (-8) 1, .std 6 (-16) 1, .la 5 (E.tramp / 2 ^ 32), .la 12 E.tramp, .mtctr 12, .mflr 5, .bl (f - 12),
   .mflr 6, .ld 6 4 6, .mtctr 6, .mtlr 5,
   .std 2 (-24) 1, .std 3 (-32) 1, .std 12 (-40) 1, .mflr 2, .std 2 (-48) 1,
   .addi 1 1 (-88), .la 2 E.toc, .la 3 E.tlsArg]

/-- Lines 86-87. -/
def seg2 : List Ins := [.ld 6 0 3, .ld 5 8 3]

/-- `.Lexpand_ulp_stack` up to the call. -/
def expandPre : List Ins :=
  [.std 4 (-8) 1, .std 7 (-16) 1, .std 8 (-24) 1, .std 9 (-32) 1, .std 10 (-40) 1, .std 11 (-48) 1,
   .mfctr 4, .std 4 (-56) 1, .mflr 4, .std 4 (-64) 1, .addi 1 1 (-104)]

/-- `.Lexpand_ulp_stack` after the call. -/
def expandPost : List Ins :=
  [.addi 1 1 104, .ld 7 (-16) 1, .ld 8 (-24) 1, .ld 9 (-32) 1, .ld 10 (-40) 1, .ld 11 (-48) 1,
   .ld 4 (-56) 1, .mtctr 4, .ld 4 (-64) 1, .mtlr 4, .ld 4 (-8) 1]

/-- `.Lcontinue_ulp_prologue` up to `bctrl`. -/
def cont : List Ins :=
  [.ld 6 8 3, .addi 6 6 16, .std 6 8 3, .ld 5 16 3, .add 5 5 6, .addi 1 1 88, .ld 2 (-48) 1, .mtlr 2, .ld 6 (-24) 1,
   .std 6 (-16) 5, .std 2 (-8) 5, .ld 5 (-8) 1, .ld 6 (-16) 1, .ld 3 (-32) 1, .ld 12 (-40) 1, .mfctr 12]

/-- After the return of the new function, up to `bl __tls_get_addr`. -/
def leave1 (E : Env) : List Ins :=
  [.std 3 (-8) 1, .std 12 (-16) 1, .addi 1 1 (-56), .bl E.tramp, .mflr 12, .la 12 E.tramp, .la 2 E.toc, .la 3 E.tlsArg]

/-- The rest, in two parts: up to the store of the new used size, and after it. -/
def leave2 : List Ins := [.ld 6 8 3, .addi 6 6 (-16), .std 6 8 3]
def leave3 : List Ins :=
  [.ld 5 16 3, .add 5 5 6, .ld 2 0 5, .ld 8 8 5, .mtlr 8, .addi 1 1 56, .ld 3 (-8) 1, .ld 12 (-16) 1]

/-- What the ABI (ELFv2) guarantees of a called function: the stack pointer and r13-r31 are preserved, and of the memory that
is not its own it writes only the caller's linkage area (32 bytes). -/
structure AbiCall (E : Env) (s s' : St) : Prop where
  sp : s'.r 1 = s.r 1
  nonvol : ∀ i, 13 ≤ i → s'.r i = s.r i
  mem : ∀ a, a < E.lo ∨ s.r 1 + 32 ≤ a → s'.mem a = s.mem a

/-- `__tls_get_addr`: an ABI call that returns the address of the thread's `ulp_stack`. -/
structure TlsCall (E : Env) (s s' : St) : Prop extends AbiCall E s s' where
  ret : s'.r 3 = E.ulp

/-- More than the ABI gives: the registers for arguments and the count register are preserved too, as they are by the short
path of `__tls_get_addr_opt`. -/
structure Gentle (s s' : St) : Prop where
  r4 : s'.r 4 = s.r 4
  args : ∀ i, 7 ≤ i → i ≤ 11 → s'.r i = s.r i
  ctr : s'.ctr = s.ctr

/-- The memory after `ulp_stack_helper`, lib/arch/powerpc64le/patch.c:266-322, when `mmap` gives `B`. -/
def helperMem (E : Env) (B : Int) (m : Int → Int) : Int → Int := fun a =>
  if a = E.ulp then (m E.ulp + E.pg) * 2
  else if a = E.ulp + 16 then B
  else if m (E.ulp + 16) ≠ 0 ∧ B ≤ a ∧ a < B + m E.ulp then m (m (E.ulp + 16) + (a - B))
  else m a

/-- Two ranges of memory have nothing in common. -/
def Apart (a n b k : Int) : Prop := a + n ≤ b ∨ b + k ≤ a

/-- A new mapping: apart from the stack, `ulp_stack` and the buffer there is. -/
structure Fresh (E : Env) (B : Int) (m : Int → Int) : Prop where
  pos : 0 < B
  stack : Apart B ((m E.ulp + E.pg) * 2) E.lo (E.hi - E.lo)
  ulp : Apart B ((m E.ulp + E.pg) * 2) E.ulp 24
  old : m (E.ulp + 16) ≠ 0 → Apart B ((m E.ulp + E.pg) * 2) (m (E.ulp + 16)) (m E.ulp)

/-- The call of `ulp_stack_helper`: an ABI call, with the effect above on the memory that is not its own. -/
structure HelperCall (E : Env) (s s' : St) (B : Int) : Prop where
  sp : s'.r 1 = s.r 1
  nonvol : ∀ i, 13 ≤ i → s'.r i = s.r i
  ret : s'.r 3 = E.ulp
  fresh : Fresh E B s.mem
  mem : ∀ a, a < E.lo ∨ s.r 1 + 32 ≤ a → s'.mem a = helperMem E B s.mem a

/-- From the entry of the livepatched function at `f` to the `bctrl` to the new one; `tls` are the possible executions of
`__tls_get_addr`. -/
def Enter (E : Env) (tls : St → St → Prop) (f : Int) (s s' : St) : Prop :=
  ∃ s1, tls (run (seg1 E f) s) s1 ∧
    if (run seg2 s1).r 6 ≤ (run seg2 s1).r 5 then
      ∃ s2 B, HelperCall E (run expandPre (run seg2 s1)) s2 B ∧ s' = run cont (run expandPost s2)
    else s' = run cont (run seg2 s1)

/-- From the return of the new function to the `blr` to the caller. -/
def Leave (E : Env) (tls : St → St → Prop) (s s' : St) : Prop :=
  ∃ s1, tls (run (leave1 E) s) s1 ∧ s' = run leave3 (run leave2 s1)

/-- The machine stack has room for the trampoline and what it calls, and the function is not on the stack. -/
structure Room (E : Env) (f : Int) (s : St) : Prop where
  lo : E.lo + 512 ≤ s.r 1
  hi : s.r 1 ≤ E.hi
  site : f - 8 < E.lo ∨ E.hi ≤ f - 8

/-- Code that has nothing to do with the trampoline: it may change everything but `ulp_stack` and its buffer. -/
structure Quiet (E : Env) (s s' : St) : Prop where
  ulp : ∀ a, E.ulp ≤ a → a < E.ulp + 24 → s'.mem a = s.mem a
  buf : ∀ a, s.mem (E.ulp + 16) ≤ a → a < s.mem (E.ulp + 16) + s.mem E.ulp → s'.mem a = s.mem a

/-- A thread: its state, the states at the entries of the calls of livepatched functions it is in (the innermost first),
and for each such call that is over the states at its entry and at its return. -/
structure Thread where
  st : St
  open_ : List St
  over : List (St × St)

/-- What a thread does: other code, the entry of a livepatched function, and the return from the innermost one. -/
inductive TStep (E : Env) (tls : St → St → Prop) : Thread → Thread → Prop
  | quiet {s t o d} : Quiet E s t → TStep E tls ⟨s, o, d⟩ ⟨t, o, d⟩
  | enter {f s t o d} : Room E f s → Enter E tls f s t → TStep E tls ⟨s, o, d⟩ ⟨t, s :: o, d⟩
  | leave {f s t e o d} : Room E f s → Leave E tls s t → TStep E tls ⟨s, e :: o, d⟩ ⟨t, o, (e, t) :: d⟩

inductive TSteps (E : Env) (tls : St → St → Prop) : Thread → Thread → Prop
  | refl (t) : TSteps E tls t t
  | tail {a b c} : TSteps E tls a b → TStep E tls b c → TSteps E tls a c

/-- A new thread: `ulp_stack` is zero (it is in `.tbss`), apart from the machine stack; pages are multiples of 16 bytes. -/
structure Started (E : Env) (s : St) : Prop where
  ulp : Apart E.ulp 24 E.lo (E.hi - E.lo)
  lohi : E.lo ≤ E.hi
  pg : 0 < E.pg ∧ E.pg % 16 = 0
  zero : s.mem E.ulp = 0 ∧ s.mem (E.ulp + 8) = 0 ∧ s.mem (E.ulp + 16) = 0

end Verif.Ppc
