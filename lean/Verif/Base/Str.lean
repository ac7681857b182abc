/-!
C strings as byte lists without the terminator, and `get_basename`.
-/

namespace Verif

/-- A C string: its bytes before the terminating NUL. -/
abbrev Str := List UInt8

/-- Index of the last occurrence of `c` (`strrchr`). -/
def strrchr (c : UInt8) : Str → Option Nat
  | [] => none
  | b :: bs => match strrchr c bs with
    | some i => some (i + 1)
    | none => if b = c then some 0 else none

/-- `get_basename(name) - name`, common/common.c:51-62. -/
def basenameOff (s : Str) : Nat :=
  match strrchr 47 s with
  | some i => i + 1
  | none => 0

/-- `get_basename`, common/common.c:51-62 (of a non-NULL string). -/
def getBasename (s : Str) : Str := s.drop (basenameOff s)

end Verif
