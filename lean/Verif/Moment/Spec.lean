import Verif.Runtime.Spec

/-! What a listing of live patches says. -/

namespace Verif.Moment.Spec

open Verif.Runtime (Applied)
open Verif.Runtime.Spec (Patch)

/-- The live patch that an element of the list stands for; the dependencies are kept in reverse order. -/
def asPatch (p : Applied) : Patch := { id := p.id, lib := p.lib, deps := p.deps.reverse, repl := p.units }

end Verif.Moment.Spec
