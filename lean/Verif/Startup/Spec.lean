import Verif.Startup.Model

/-! What users rely on while processes start. -/

namespace Verif.Startup.Spec

/-- The start is over: the constructors were called, and no thread is in `__ulp_asunsafe_begin`. -/
def Settled (s : St) : Prop := s.stage = .called ∧ ∀ t pc ok c, Frame.begin pc ok c ∉ s.stack t

/-- All functions that libpulp interposes exist in another library. -/
def AllExist (e : Env) : Prop := ∀ f, e.found f = true

/-- The next thing the thread does is to call the function at address 0. -/
def JumpsToNull (s : St) (t : Nat) : Prop := ∃ f r, s.stack t = .entering f :: r ∧ s.real f = false

/-- A thread is in an interposed function. -/
def Inside (s : St) (t : Nat) : Prop := ∃ f c, Frame.inside f c ∈ s.stack t

/-- It has been since before libpulp knew where that function is. -/
def InsideSinceEarly (s : St) (t : Nat) : Prop := ∃ f, Frame.inside f false ∈ s.stack t

/-- The interposed functions that are in libdl (of those named in the error messages). -/
def dlFunctions : List Fn := [.dlclose, .dladdr, .dladdr1, .dlinfo]

end Verif.Startup.Spec
