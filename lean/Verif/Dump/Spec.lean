import Verif.Dump.Model
import Verif.Metadata.Spec

/-! What of the metadata can be seen. -/

namespace Verif.Dump

open Verif.Metadata (Bytes PRef Parsed)
open Verif.Metadata.Spec (cstring)

/-- No line end in a string. -/
def OneLine (s : Option Str) : Prop := ∀ t, s = some t → (10 : UInt8) ∉ t

/-- All names of the metadata are of one line. -/
structure Plain (q : Parsed) : Prop where
  file : OneLine (cstring q.soFilename)
  name : OneLine (cstring q.name)
  units : ∀ u ∈ q.units, OneLine (cstring u.oldFname) ∧ OneLine (cstring u.newFname)
  refs : ∀ r ∈ q.refs, OneLine (cstring r.referenceName)

/-- Two metadata that look the same in a dump: the first 20 bytes of patch id and build id, the file, the name of the library, the
functions with their addresses, and of the references the name, the offset of the target and whether it is thread-local. -/
structure Alike (q q' : Parsed) : Prop where
  id : q.patchId.take 20 = q'.patchId.take 20
  file : cstring q.soFilename = cstring q'.soFilename
  build : q.buildId.take 20 = q'.buildId.take 20
  name : cstring q.name = cstring q'.name
  units : q.units.map (fun u => (cstring u.oldFname, cstring u.newFname, u.oldFaddr)) =
    q'.units.map (fun u => (cstring u.oldFname, cstring u.newFname, u.oldFaddr))
  refs : q.refs.map (fun r => (cstring r.referenceName, r.targetOffset, decide (r.tls ≠ 0))) =
    q'.refs.map (fun r => (cstring r.referenceName, r.targetOffset, decide (r.tls ≠ 0)))

end Verif.Dump
