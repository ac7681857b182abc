import Verif.Base.Err
import Verif.Base.Mem

/-!
Model of lib/arch/powerpc64le/patch.c: how the entry of a function is changed on POWER.
-/

namespace Verif.Ppc

/-- `generate_branch_to_prologue`, lib/arch/powerpc64le/patch.c:71-76; the result as a 32-bit word. -/
def generateBranch (offset : Int) : Nat := ((offset % 2 ^ 32).toNat &&& 0x00FFFFFF) ||| (0x4B <<< 24)

/-- `INSN_SIZE * PRE_NOPS_LEN`: 13 instructions (configure.ac) of 4 bytes. -/
def preLen : Nat := 52

/-- `WITH_OFFSET`, lib/arch/powerpc64le/patch.c:78. -/
def withOffset (offset : Nat) : Int := -((preLen : Int) + offset)

/-- `gNop`, lib/arch/powerpc64le/patch.c:69. -/
def nop : List UInt8 := [0x00, 0x00, 0x00, 0x60]

/-- The branch as it is in memory. -/
def branchBytes (offset : Nat) : List UInt8 := le 4 (generateBranch (withOffset offset))

/-- `get_branch_offset`, lib/arch/powerpc64le/patch.c:117-143; `none` for `-INT_MAX`. -/
def getBranchOffset (m : Mem) (f : Nat) : Option Nat :=
  if m.load f 4 = nop ∨ m.load f 4 = branchBytes 0 then some 0
  else if m.load (f + 8) 4 = nop ∨ m.load (f + 8) 4 = branchBytes 8 then some 8
  else none

/-- The prologue with the address of the new function in it, lib/arch/powerpc64le/patch.c:99-104.  `template` are the 44
bytes of instructions of `ulp_prologue`, lib/arch/powerpc64le/ulp_prologue.S; the address follows them. -/
def prologue (template : List UInt8) (new : Nat) : List UInt8 := template ++ le 8 new

/-- `ulp_patch_addr`, lib/arch/powerpc64le/patch.c:209-224, with `ulp_patch_prologue_layout`, `ulp_patch_addr_trampoline` and
`ulp_skip_prologue`: the return value, and the writes queued (which all fit into the queue). -/
def patchAddr (template : List UInt8) (m : Mem) (old new : Nat) (enable : Bool) : Err × List (Nat × List UInt8) :=
  if enable then
    let w := [(old - preLen, prologue template new)]
    match getBranchOffset m old with
    | none => (ENOPATCHABLE, w)
    | some off => (0, w ++ [(old + off, branchBytes off)])
  else
    match getBranchOffset m old with
    | none => (ENOPATCHABLE, [])
    | some off => (0, [(old + off, nop)])

/-- Performing the writes, as `ulp` does when it interprets the queue. -/
def perform (m : Mem) (ws : List (Nat × List UInt8)) : Mem := ws.foldl (fun m w => m.store w.1 w.2) m

end Verif.Ppc
