import Verif.Inspect.Model
import Verif.Text.Model

/-!
Model of how the tools read which version of libpulp a process has (tools/introspection.c:934-939, in `get_libpulp_extern_symbols`), from
the string `__ulp_version` (lib/ulp.c:53).
-/

namespace Verif.Version

open Verif.Inspect (Proc)
open Verif.Ptrace (readStringAllocated cstr)

/-- The version read from address `a`, tools/introspection.c:935-937.  `junk` is what the array `str`, which is not initialised, happens to
hold.  The result of `read_string_allocated` is not looked at; `none`: `ulp_version_from_string` reads bytes that have never been set or
that are behind the array.  (If reading fails, the words before that have been stored, and have no terminator in them.) -/
def readVersion (p : Proc) (a : Nat) (junk : List UInt8) : Option Nat :=
  match readStringAllocated p.readable p.mem a junk with
  | .ok buf => if (0 : UInt8) ∈ buf then some (Text.versionFromString (cstr buf)) else none
  | _ => none

/-- `char str[32]`, tools/introspection.c:935. -/
def size : Nat := 32

end Verif.Version
