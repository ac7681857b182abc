import Verif.Base.Err
import Verif.Base.Str

/-!
Model of the text helpers of common/common.c and tools/extract.c: versions, build ids, error
messages and temporary file names.  C library functions (`printf` conversions, `strtok`, `atoi`,
`sscanf`) are modelled after the C standard and glibc.
-/

namespace Verif.Text

/-! ### Decimal numbers -/

/-- `printf("%u")`: decimal digits, most significant first. -/
def printDec (n : Nat) : Str :=
  if n < 10 then [UInt8.ofNat (48 + n)] else printDec (n / 10) ++ [UInt8.ofNat (48 + n % 10)]
termination_by n

/-- `isdigit` in the C locale. -/
def isDigit (c : UInt8) : Bool := 48 ≤ c && c ≤ 57

/-- `isnumber`, common/common.c:168-181; `none` is the NULL pointer. -/
def isnumber : Option Str → Bool
  | none => false
  | some [] => false
  | some s => s.all isDigit

/-- `atoi` of a string of digits as in glibc: `(int) strtol(s, NULL, 10)`, where `strtol` saturates at
`LONG_MAX`.  (ISO C leaves a value that does not fit an `int` undefined.) -/
def atoi (s : Str) : Int :=
  let v : Nat := min (s.foldl (fun a c => a * 10 + (c.toNat - 48)) 0) (2 ^ 63 - 1) % 2 ^ 32
  if v < 2 ^ 31 then v else (v : Int) - 2 ^ 32

/-- `strtok(s, ".")` on the unconsumed part `s`: the token, and what remains for the next call. -/
def strtok (s : Str) : Option Str × Str :=
  let s := s.dropWhile (fun c => c == 46)
  if s = [] then (none, []) else (some (s.takeWhile (fun c => c != 46)), (s.dropWhile (fun c => c != 46)).drop 1)

/-! ### Versions -/

/-- `ULP_VERSION_TRIPLET`, include/ulp_common.h:239, on 64-bit unsigned operands. -/
def triplet (a b c : Nat) : Nat := (c + (b <<< 16) + (a <<< 32)) % 2 ^ 64

/-- One iteration of the loop of `ulp_version_from_string`, common/common.c:588-601: the component
and the remaining text, or `none` if the function returns 0. -/
def component (s : Str) : Option (Nat × Str) :=
  let (tok, rest) := strtok s
  if !isnumber tok then none
  else
    let v := (atoi (tok.getD []) % 2 ^ 64).toNat
    if v > 0xFFFF then none else some (v, rest)

/-- `ulp_version_from_string`, common/common.c:582-604. -/
def versionFromString (s : Str) : Nat :=
  match component s with
  | none => 0
  | some (a, s) => match component s with
    | none => 0
    | some (b, s) => match component s with
      | none => 0
      | some (c, _) => triplet a b c

/-- `ulp_version_as_string`, common/common.c:606-617. -/
def versionAsString (v : Nat) : Str :=
  let a := ((v &&& 0x0000FFFF00000000) >>> 32) % 2 ^ 16
  let b := ((v &&& 0x00000000FFFF0000) >>> 16) % 2 ^ 16
  let c := (v &&& 0x000000000000FFFF) % 2 ^ 16
  printDec a ++ [46] ++ printDec b ++ [46] ++ printDec c

/-! ### Build ids -/

/-- `BUILDID_LEN`, include/ulp_common.h. -/
def buildIdLen : Nat := 20

/-- A lower case hexadecimal digit. -/
def hexDigit (n : Nat) : UInt8 := if n < 10 then UInt8.ofNat (48 + n) else UInt8.ofNat (87 + n)

/-- `snprintf(_, 3, "%02x", b)`. -/
def printHex (b : UInt8) : Str := [hexDigit (b.toNat / 16), hexDigit (b.toNat % 16)]

/-- `buildid_to_string`, common/common.c:80-92. -/
def buildidToString (id : List UInt8) : Str := id.flatMap printHex

/-- Value of a hexadecimal digit, either case. -/
def hexVal (c : UInt8) : Option Nat :=
  if 48 ≤ c ∧ c ≤ 57 then some (c.toNat - 48)
  else if 97 ≤ c ∧ c ≤ 102 then some (c.toNat - 87)
  else if 65 ≤ c ∧ c ≤ 70 then some (c.toNat - 55)
  else none

/-- `isspace` in the C locale. -/
def isSpace (c : UInt8) : Bool := c == 32 || (9 ≤ c && c ≤ 13)

/-- Leading hexadecimal digits of `s`, at most `w`. -/
def hexRun : Nat → Str → List Nat
  | 0, _ => []
  | _, [] => []
  | w + 1, c :: s => match hexVal c with
    | none => []
    | some v => v :: hexRun w s

/-- Value of `%2x` after sign and prefix have been dealt with; `none`: matching failure. -/
def hexNum (w : Nat) (s : Str) : Option Nat :=
  match hexRun w s with
  | [] => none
  | ds => some (ds.foldl (fun a d => a * 16 + d) 0)

/-- `sscanf(s, "%02x", &val)`: white space is skipped; a sign and a `0x` prefix count towards the
field width 2.  `none`: nothing is stored.  A lone `0x` reads as 0 (glibc; in ISO C it fails).  A
negative number is stored modulo 2^32. -/
def scanHex2 (s : Str) : Option Nat :=
  match s.dropWhile isSpace with
  | 43 :: s => hexNum 1 s
  | 45 :: s => (hexNum 1 s).map fun v => (2 ^ 32 - v) % 2 ^ 32
  | 48 :: 120 :: _ => some 0
  | 48 :: 88 :: _ => some 0
  | s => hexNum 2 s

/-- What can come out of `str_to_buildid`: a build id, EINVAL, a read outside of the string, or use
of the uninitialized `val` (tools/extract.c:59). -/
inductive ParseResult where
  | ok (id : List UInt8)
  | einval
  | outOfBounds
  | uninitialized
deriving DecidableEq, Repr

/-- Iterations `i..` of the loop of `str_to_buildid`, tools/extract.c:58-63. `&str[2*i]` may point at
the terminator but not beyond it. -/
def parseLoop (str : Str) (n i : Nat) (acc : List UInt8) : ParseResult :=
  match n with
  | 0 => .ok acc
  | n + 1 =>
    if str.length < 2 * i then .outOfBounds
    else match scanHex2 (str.drop (2 * i)) with
      | none => .uninitialized
      | some v => parseLoop str n (i + 1) (acc ++ [UInt8.ofNat v])

/-- `str_to_buildid`, tools/extract.c:48-66. -/
def strToBuildid (str : Str) : ParseResult :=
  if str.length < buildIdLen then .einval else parseLoop str buildIdLen 0 []

/-! ### Error messages -/

/-- `__ULP_ERRLIST`, include/error_common.h:77-113.  The last two literals are not separated by a
comma, so they are one string. -/
def errlist : List String :=
  ["Unknown error", "Build ID mismatch", "Error attaching to process", "Process without debug tag",
   "No link map in object", "Invalid program header", "Unable to find process entry address",
   "Libpulp not found in target process", "Thread attach failure", "Thread dettach failure",
   "Invalid .ulp file", "To be patched function not found", "New function not found",
   "No metadata in .so", "State update failure", "Unable to retrieve ulp state", "Patch not applied",
   "Dependency failure", "Address read error", "Patch already applied", "Target library not loaded",
   "libpulp.so hook routine not run", "Function is not livepatchable", "No file matched wildcard",
   "Livepatching blocked by user request", "Libpulp version is too old",
   "Libpulp initialization failure", "Page permission error", "No patches installed",
   "Instruction queue in inconsistent state", "ULP tool is too old", "Failure in dlopen",
   "Libdl not found." ++ "Libc not found or unsupported."]

/-- `libpulp_strerror`, common/common.c:94-106; `strerror` is the C library's. -/
def strerror (sys : Err → String) (e : Err) : String :=
  if 0xFF < e ∧ e < EUNKNOWN + errlist.length then (errlist[e &&& 0xFF]?).getD "" else sys e

/-! ### Temporary files -/

/-- "/tmp/ulp-", common/common.c:195. -/
def tmpPrefix : Str := [47, 116, 109, 112, 47, 117, 108, 112, 45]

/-- `snprintf(buffer, 24, "%s%u", tmp_prefix, token)`, common/common.c:211. -/
def candidate (token : UInt32) : Str := (tmpPrefix ++ printDec token.toNat).take 23

/-- The file system as `create_path_to_tmp_file` sees it: which names exist, can be opened for
reading, and can be opened for writing. -/
structure Files where
  exist : Str → Bool
  readable : Str → Bool
  writable : Str → Bool
  readable_exist : ∀ n, readable n = true → exist n = true

/-- Result of `create_path_to_tmp_file`; `crash` is `fwrite` to the NULL stream of line 221. -/
inductive TmpResult where
  | path (name : Str)
  | null
  | crash
deriving DecidableEq, Repr

/-- The loop of `create_path_to_tmp_file`, common/common.c:200-225.  `rand i` is what the `i`th
`getrandom` stores (`none`: it fails).  `none` if the loop has not ended within `fuel`
iterations. -/
def tmpLoop (fs : Files) (rand : Nat → Option UInt32) (conflict : Bool) : (fuel i : Nat) → Option TmpResult
  | 0, _ => none
  | fuel + 1, i => match rand i with
    | none => some .null
    | some token =>
      let name := candidate token
      let conflict := if fs.readable name then true else conflict
      if conflict then tmpLoop fs rand conflict fuel (i + 1)
      else some (if fs.writable name then .path name else .crash)

/-- `create_path_to_tmp_file`, common/common.c:192-226. -/
def createTmp (fs : Files) (rand : Nat → Option UInt32) (fuel : Nat) : Option TmpResult :=
  tmpLoop fs rand false fuel 0

end Verif.Text
