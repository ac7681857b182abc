import Verif.Metadata.Model
import Verif.Text.Model

/-!
Model of what `ulp dump` prints (tools/dump.c), for metadata parsed as in `Verif.Metadata`.
-/

namespace Verif.Dump

open Verif.Metadata (Bytes PRef Parsed)

/-- The bytes of a format string. -/
def lit (s : String) : Str := s.toUTF8.toList

/-- The new line. -/
def nl : Str := [10]

/-- `%s`: the string in a buffer; `none`: it is not terminated, memory behind it is read. -/
def cstr : Bytes → Option Str
  | [] => none
  | c :: cs => if c = 0 then some [] else (cstr cs).map (c :: ·)

/-- `%lx` -/
def hex (n : Nat) : Str :=
  if n < 16 then [Text.hexDigit n] else hex (n / 16) ++ [Text.hexDigit (n % 16)]
termination_by n

/-- `%p` in glibc. -/
def ptr (n : Nat) : Str := if n = 0 then lit "(nil)" else lit "0x" ++ hex n

/-- `%d` of a `uint32_t`. -/
def dec32 (n : Nat) : Str :=
  if n % 2 ^ 32 < 2 ^ 31 then Text.printDec (n % 2 ^ 32) else lit "-" ++ Text.printDec (2 ^ 32 - n % 2 ^ 32)

/-- `buildid_to_string` of a buffer, common/common.c:80-92: always 20 bytes; `none`: the buffer is shorter. -/
def buildid (b : Bytes) : Option Str := if b.length < 20 then none else some (Text.buildidToString (b.take 20))

/-- Lines 62-68. -/
def dumpUnits : List Metadata.PUnit → Option Str
  | [] => some []
  | u :: us => do
    let old ← cstr u.oldFname
    let new ← cstr u.newFname
    let rest ← dumpUnits us
    some (nl ++ lit "** old_fname: " ++ old ++ nl ++ lit "** new_fname: " ++ new ++ nl ++
      lit "** old_faddr: " ++ ptr u.oldFaddr ++ nl ++ rest)

/-- Lines 70-77; line 75 prints the offset of the target again. -/
def dumpRefs : List PRef → Option Str
  | [] => some []
  | r :: rs => do
    let name ← cstr r.referenceName
    let rest ← dumpRefs rs
    some (lit "*** ref_name: " ++ name ++ nl ++ lit "*** target_offset: " ++ hex r.targetOffset ++ nl ++
      lit "*** patch_offset: " ++ hex r.targetOffset ++ nl ++
      lit "*** tls variable: " ++ (if r.tls ≠ 0 then lit "yes" else lit "no") ++ nl ++ nl ++ rest)

/-- `dump_metadata`, tools/dump.c:33-80; `none`: undefined behaviour.  The name of the object is never a null
pointer, since the parser allocates it. -/
def dumpMetadata (q : Parsed) (only : Bool) : Option Str := do
  let id ← buildid q.patchId
  let build ← buildid q.buildId
  let refs ← dumpRefs q.refs
  let tail := nl ++ lit "static references: " ++ dec32 q.refs.length ++ nl ++ refs
  if only then some (build ++ nl ++ tail)
  else do
    let file ← cstr q.soFilename
    let name ← cstr q.name
    let units ← dumpUnits q.units
    some (lit "patch id: " ++ id ++ nl ++ lit "so filename: " ++ file ++ nl ++
      nl ++ lit "* build id: " ++ build ++ nl ++ lit "* name: " ++ name ++ nl ++
      lit "* units: " ++ dec32 q.units.length ++ nl ++ units ++ tail)

/-- `dump_ulp_comments`, tools/dump.c:82-97, for the contents of the section `.ulp.comments`, if any. -/
def dumpComments : Option Bytes → Option Str
  | none => some []
  | some [] => some []
  | some b => (cstr b).map fun s => lit "* comments: " ++ nl ++ s ++ nl

/-- `run_dump` after extraction and parsing, tools/dump.c:117-122. -/
def runDump (q : Parsed) (only : Bool) (comments : Option Bytes) : Option Str := do
  let a ← dumpMetadata q only
  let b ← dumpComments comments
  some (a ++ b)

end Verif.Dump
