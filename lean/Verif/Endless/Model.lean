import Verif.Inspect.Model
import Verif.Status.Model
import Verif.BuildId.Model

/-!
The loops with which the tools read the memory of a process that they inspect are modelled in `Verif.Inspect` (auxiliary
vector, dynamic sections, link map, symbols) and `Verif.Status` (list of applied patches), with a number of rounds after which
the model gives up.  Here the remaining loop: that over the notes of an object, in which the tools look for its build id.

The tool has as much memory and stack as it wants: `get_libname_dynobj` allocates for each entry of the link map, and
`read_ulp_applied_patch` allocates and calls itself for each patch, so that where the model goes on for ever these two
end with the tool being killed.
-/

namespace Verif.Endless

open Verif.Inspect (Proc num wrap readMem)
open Verif.BuildId (toolAlign)

/-- The loop over the notes of a PT_NOTE segment up to `end_`, tools/introspection.c:711-746: place and length of the build
id.  The lengths are of type `ElfW(Word)`, so that their sum has 32 bits.  `none`: not ended after `fuel` notes. -/
def noteLoop (p : Proc) : (fuel a end_ : Nat) → Option (Except Err (Option (Nat × Nat)))
  | 0, _, _ => none
  | fuel + 1, a, end_ =>
    match readMem p a 12 with
    | none => some (.error ETARGETHOOK)
    | some b =>
      let nameLen := toolAlign (num b 0 4)
      let descLen := toolAlign (num b 4 4)
      if num b 8 4 = 3 then some (.ok (some (wrap (a + 12 + nameLen), descLen)))
      else
        let next := wrap (a + (descLen + nameLen + 12) % 2 ^ 32)
        if next < end_ then noteLoop p fuel next end_ else some (.ok none)

end Verif.Endless
