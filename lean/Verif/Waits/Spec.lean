import Verif.Waits.Model

/-! What is said about requests that wait. -/

namespace Verif.Waits.Spec

/-- A thread is inside a function whose lock the checks do not look at. -/
def unwatched (f : Fn) : Prop :=
  match f with
  | .upkeep _ | .clock => True
  | _ => False

/-- Some thread is inside an unwatched function. -/
def inUnwatched (s : St) : Prop := ∃ t ∈ s.threads, ∃ f ∈ t, unwatched f.fn

/-- The locks a call needs. -/
def locks : Call → List Lock
  | .memory a => [.arena a]
  | .log => [.zone]
  | .open a => [.load, .arena a]
  | .sym => [.load]
  | .phdrs => [.write]

end Verif.Waits.Spec
