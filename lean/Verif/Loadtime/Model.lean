import Verif.Version.Model
import Verif.Status.Model

/-!
`ulp patches` with the version of libpulp as it is read from the process: topics Version and Status put together.
-/

namespace Verif.Loadtime

open Verif.Inspect (Proc)
open Verif.Status (Arch Libpulp Object Line printProcess)

/-- What `ulp patches` prints about a process: `get_libpulp_extern_symbols` (tools/introspection.c:894-955) stores the version read from `at_` in the object
of libpulp (:942), which is one of the objects printed (tools/patches.c:558-573), and `ulp_read_state` uses it (tools/introspection.c:2638-2641).  `pre` and
`post` are the objects before and after libpulp.  `.error` is undefined behaviour, outer `none`: not ended with that fuel. -/
def print (arch : Arch) (p : Proc) (l : Libpulp) (at_ : Nat) (junk : List UInt8) (name : Str) (pre : List Object) (pulp : Object) (post : List Object)
    (buildid only : Bool) (fuel : Nat) : Option (Except Unit (List Line)) :=
  match Version.readVersion p at_ junk with
  | none => some (.error ())
  | some v => printProcess arch p { l with version := v } name (pre ++ { pulp with version := v } :: post) buildid only fuel

end Verif.Loadtime
