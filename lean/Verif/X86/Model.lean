import Verif.Base.Err
import Verif.Base.Mem

/-!
Model of the x86-64 function entry patching, lib/arch/x86_64/patch.c.
-/

namespace Verif.X86

/-- `insn_endbr64`, lib/arch/x86_64/patch.c:34, include/arch/x86_64/arch_common.h:5. -/
def endbr64 : List UInt8 := [0xf3, 0x0f, 0x1e, 0xfa]

/-- `memcmp(old_faddr, insn_endbr64, 4) == 0`, lib/arch/x86_64/patch.c:95,127. -/
def hasEndbr (m : Mem) (f : Nat) : Bool := m.load f 4 == endbr64

/-- `PRE_NOPS_LEN`, include/arch/x86_64/arch_common.h. -/
def preNops : Nat := 14

/-- `bias`, lib/arch/x86_64/patch.c:94-96; also the advance of `as_bytes` in :130. -/
def bias (endbr : Bool) : Nat := if endbr then 4 else 0

/-- `patched_prologue`, lib/arch/x86_64/patch.c:41-61,153-158: `jmp *0x0(%rip)`, the address, and at
the function entry an optional `endbr64` followed by a short jump backwards. -/
def prologue (endbr : Bool) (new : Nat) : List UInt8 :=
  [0xff, 0x25, 0, 0, 0, 0] ++ le 8 new ++
    (if endbr then endbr64 ++ [0xeb, 0xec] else [0xeb, 0xf0])

/-- The livepatchable check, lib/arch/x86_64/patch.c:138-146, at the entry (after `endbr64`). -/
def patchable (m : Mem) (f : Nat) : Bool :=
  let a := f + bias (hasEndbr m f)
  m a == 0xeb || (m (a + 1) == 0x90 && (m a == 0x90 || m a == 0x66))

/-- `ulp_patch_addr`, lib/arch/x86_64/patch.c:115-169 with `ulp_skip_prologue` (:91-101): the error
or the single write it requests. Addresses are naturals; a function address below 14 (where the C
pointer would wrap around) is excluded by the hypotheses of the theorems. -/
def patchAddr (m : Mem) (old new : Nat) (enable : Bool) : Except Err (Nat × List UInt8) :=
  let e := hasEndbr m old
  if !patchable m old then .error ENOPATCHABLE
  else if enable then .ok (old - preNops, prologue e new)
  else .ok (old + bias e, [0x66, 0x90])

end Verif.X86
