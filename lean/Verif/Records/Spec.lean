import Verif.Records.Model
import Verif.Heap.Spec

/-! What should be true of the memory of the tools. -/

namespace Verif.Records

open Verif.Heap (Heap Blk)

/-- The heap `h'` is `h` with `lost` allocated beside. -/
def Left (h h' : Heap) (lost : List Blk) : Prop := h'.live.Perm (lost ++ h.live)

/-- An entry of the link map can be read, with its name. -/
def Lib.ok : Lib → Bool
  | .unreadable => false
  | .named t _ => t.ok

/-- Reading about a process breaks off in the auxiliary vector or the link map.  (Whether the process is one that can be patched does not matter.) -/
def Answers.broken (a : Answers) : Bool := a.attached && a.name && (!a.bias || (a.linkMap && a.libs.any fun l => !l.ok))

/-- The directory of the threads of process `pid` shows the thread of that number, as it does for every process. -/
def Lists (pid : Nat) (es : List Entry) : Prop := pid ≠ 0 ∧ ∃ attach regs, Entry.thread pid attach regs ∈ es

/-- An attempt at process `pid` meets a proper directory. -/
def Use.Fits (pid : Nat) : Use → Prop
  | .attempt _ es _ => Lists pid es
  | .note => True

/-- Every attempt meets a proper directory. -/
def Fits (es : List Ev) : Prop := ∀ pid u, Ev.use pid u ∈ es → u.Fits pid

/-- Number of processes about which reading breaks off. -/
def broken : List Ev → Nat
  | [] => 0
  | .insert _ a :: es => a.broken.toNat + broken es
  | .use _ _ :: es => broken es

end Verif.Records
