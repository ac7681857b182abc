import Verif.Base.Mem

/-!
Model of `ulp post` for x86_64, which merges the two NOPs at the entry of every patchable function of a library.
-/

namespace Verif.Post

/-- What a function of the tool may do: return, fail an assertion, or read outside of a section (undefined). -/
inductive Res (α : Type) where
  | ok (a : α)
  | abort
  | ub
deriving DecidableEq, Repr

/-- A section: its address (`sh_addr`) and data (`d_buf`). -/
structure Section where
  addr : Nat
  data : List UInt8
deriving DecidableEq, Repr

/-- The library: its sections, and the value and section index (`st_value`, `st_shndx`) of each symbol of .symtab, or of
.dynsym if there is no .symtab (post-arch.c:59-64; no table at all is an empty list). -/
structure Elf where
  secs : List Section
  syms : List (Nat × Nat)
deriving DecidableEq, Repr

/-- The comparison with `insn_endbr64`, tools/arch/x86_64/post-arch.c:86-90; include/ulp_common.h:47. -/
def isEndbr (d : List UInt8) (o : Nat) : Prop :=
  d[o]? = some 0xf3 ∧ d[o + 1]? = some 0x0f ∧ d[o + 2]? = some 0x1e ∧ d[o + 3]? = some 0xfa

instance (d o) : Decidable (isEndbr d o) := by unfold isEndbr; infer_instance

/-- Where the NOPs of the function at offset `o` are, tools/arch/x86_64/post-arch.c:90-91. -/
def nopOff (d : List UInt8) (o : Nat) : Nat := if isEndbr d o then o + 4 else o

/-- The assertion that they are NOPs, tools/arch/x86_64/post-arch.c:94-95. -/
def areNops (d : List UInt8) (o : Nat) : Prop :=
  d[o + 1]? = some 0x90 ∧ (d[o]? = some 0x90 ∨ d[o]? = some 0x66)

instance (d o) : Decidable (areNops d o) := by unfold areNops; infer_instance

/-- Merging in the section, tools/arch/x86_64/post-arch.c:83-100.  Reading outside the section is undefined. -/
def mergeNops (s : Section) (addr : Nat) : Res Section :=
  if addr < s.addr ∨ s.data.length < addr - s.addr + 4 then .ub
  else
    let o := nopOff s.data (addr - s.addr)
    if s.data.length < o + 2 then .ub
    else if areNops s.data o then .ok { s with data := s.data.set o 0x66 }
    else .abort

/-- `merge_nops_at_addr (addr, 2)`, tools/arch/x86_64/post-arch.c:41-104. -/
def mergeAt (e : Elf) (addr : Nat) : Res Elf :=
  match e.syms.find? (fun s => s.1 == addr) with
  | none => .ok e
  | some (_, i) =>
    match e.secs[i]? with
    | none => .abort
    | some s =>
      match mergeNops s addr with
      | .ok s' => .ok { e with secs := e.secs.set i s' }
      | .abort => .abort
      | .ub => .ub

/-- `nops_fixup`, tools/post.c:84-115, on the addresses in `__patchable_function_entries`: `PRE_NOPS_LEN` is 14,
`ULP_NOPS_LEN` 16 (include/arch/x86_64/arch_common.h). -/
def fixup (e : Elf) : List Nat → Res Elf
  | [] => .ok e
  | a :: as =>
    match mergeAt e (a + 14) with
    | .ok e' => fixup e' as
    | .abort => .abort
    | .ub => .ub

end Verif.Post
