import Verif.Report.Model

/-! What a report on a process should say. -/

namespace Verif.Report

/-- The name of the patch a line is about. -/
def Out.about : Out → Option Bytes
  | .skipped n _ => some n
  | .failed n _ => some n
  | .success n => some n
  | _ => none

/-- The line says that something failed. -/
def Out.saysFailed : Out → Bool
  | .failed _ _ => true
  | .failedNameless => true
  | _ => false

/-- Live patches not meant for the process, by the two errors the report calls minor. -/
def Result.notForProcess (r : Result) : Prop := r.err = 257#32 ∨ r.err = 276#32

/-- The errors that `ulp trigger` counts as skipped, not as failures. -/
def Result.countedSkipped (r : Result) : Prop :=
  r.err = 257#32 ∨ r.err = 276#32 ∨ r.err = 280#32 ∨ r.err = 279#32 ∨ r.err = 275#32 ∨ r.err = 284#32 ∨
    r.err = 3#32

instance (r : Result) : Decidable r.notForProcess := inferInstanceAs (Decidable (_ ∨ _))
instance (r : Result) : Decidable r.countedSkipped := inferInstanceAs (Decidable (_ ∨ _))

end Verif.Report
