import Verif.Check.Model

/-! What `ulp check` is to tell. -/

namespace Verif.Check

open Verif.Metadata (Bytes)

/-- The live patch is applied. -/
def Applied (p : Proc) (id : Bytes) : Prop := id ∈ p.applied

/-- Nothing stands in the way: the process is there, can be stopped, written, run and released. -/
structure AllWell (w : World) : Prop where
  pid : Text.isnumber w.pid = true
  init : w.init = 0
  sanity : w.sanity = 0
  hijack : w.hijack = 0
  write : w.write = true
  run : w.run = 0
  restore : w.restore = 0

/-- Two buffers agree but for the first 32 bytes. -/
def SameTail (a b : Bytes) : Prop := a.drop 32 = b.drop 32

end Verif.Check
