import Verif.Base.Str
import Verif.Base.Mem

/-!
Model of what `ulp patches` lists: the iteration over processes (tools/patches.c:50-201), the labels printed for a patch
(tools/patches.c:289-371), and how the packer collects the text with the labels (tools/packer.c:474-493, 1211-1234).
-/

namespace Verif.Listing

/-! ### Processes -/

/-- An entry of /proc, with what the tool finds out about it. -/
structure Entry where
  /-- `atoi` of the name of the directory; `none` if the name is not a number. -/
  pid : Option Nat
  /-- `get_target_binary_name`, which never returns NULL. -/
  name : Str
  /-- `get_process_owner`: 0 if it cannot be found out. -/
  uid : Nat
  /-- The name `getpwuid` gives for `uid`. -/
  user : Option Str
  /-- `has_libpulp_loaded`. -/
  libpulp : Bool
  /-- `initialize_data_structures` succeeds in `insert_target_process`. -/
  collects : Bool

/-- What is asked for. -/
structure Query where
  wildcard : Option Str
  userWildcard : Option Str
  /-- 0 unless the user wildcard is a number, tools/patches.c:162-165. -/
  targetUid : Nat
  self : Nat
  /-- `fnmatch(wildcard, name, 0) == 0`. -/
  fnmatch : Str → Str → Bool

/-- The test of the user, tools/patches.c:77-92. -/
def userOk (q : Query) (e : Entry) : Bool :=
  match q.userWildcard with
  | none => true
  | some w =>
    if q.targetUid > 0 then e.uid = q.targetUid
    else if e.uid > 0 then
      match e.user with
      | some u => q.fnmatch w u
      | none => true
    else true

/-- The test of the name, tools/patches.c:69-75. -/
def nameOk (q : Query) (e : Entry) : Bool :=
  match q.wildcard with
  | none => true
  | some w => q.fnmatch w e.name

/-- All tests up to `has_libpulp_loaded`, tools/patches.c:61-100. -/
def selected (q : Query) (e : Entry) : Bool :=
  e.pid.isSome && nameOk q e && userOk q e && e.pid != some q.self && e.libpulp

/-- `generate_ulp_list_thread` in a thread, tools/patches.c:50-113: what is enqueued; `last` is the process of `it->last`. -/
def gen (q : Query) : List Entry → Option Nat → List (Option Nat)
  | [], _ => [none]
  | e :: es, last =>
    if selected q e then
      let last' := if e.collects then e.pid else last
      last' :: gen q es last'
    else gen q es last

/-- The same without a thread: one call, which goes on in the directory where the last call stopped. -/
def next (q : Query) : List Entry → Option Nat → Option Nat × List Entry × Option Nat
  | [], last => (none, [], last)
  | e :: es, last =>
    if selected q e then
      let last' := if e.collects then e.pid else last
      (last', es, last')
    else next q es last

theorem next_length (q : Query) (es : List Entry) (last) (h : (next q es last).1 ≠ none) :
    (next q es last).2.1.length < es.length := by
  induction es generalizing last with
  | nil => simp [next] at h
  | cons e es ih =>
    simp only [next] at h ⊢
    split
    · simp
    · rename_i hs
      simp only [hs, if_false] at h
      have := ih last h
      simp only [List.length_cons]; omega

/-- `FOR_EACH_ULP_PROCESS` without a thread, tools/patches.h:54-57: the loop ends at the first NULL. -/
def loop (q : Query) (es : List Entry) (last : Option Nat) : List Nat :=
  match h : (next q es last).1 with
  | none => []
  | some p => p :: loop q (next q es last).2.1 (next q es last).2.2
termination_by es.length
decreasing_by exact next_length q es last (by rw [h]; simp)

/-- The elements a consumer gets to see: up to the first NULL. -/
def seen : List (Option Nat) → List Nat
  | some p :: r => p :: seen r
  | _ => []

/-! ### Labels -/

def isDigit (c : UInt8) : Bool := 48 ≤ c && c ≤ 57
def isAlpha (c : UInt8) : Bool := (65 ≤ c && c ≤ 90) || (97 ≤ c && c ≤ 122)
def lower (c : UInt8) : UInt8 := if 65 ≤ c && c ≤ 90 then c + 32 else c

/-- `strncasecmp(head, p, 4) == 0`; the comparison stops at a difference, so it does not pass the NUL. -/
def hasPrefix (p : List UInt8) (l : List UInt8) : Bool := (l.take 4).map lower == p

def bsc : List UInt8 := [98, 115, 99, 35]
def jsc : List UInt8 := [106, 115, 99, 35]
def cve : List UInt8 := [99, 118, 101, 45]

/-- The loop over a class of characters, which stops at the NUL as well (it is in neither class). -/
def spanLen (p : UInt8 → Bool) (l : List UInt8) : Nat := (l.takeWhile p).length

/-- The optional `-<digits>`. -/
def dashLen (l : List UInt8) : Nat :=
  match l with
  | 45 :: r => 1 + spanLen isDigit r
  | _ => 0

/-- The length of the label at the head of the text, tools/patches.c:305-353. -/
def labelLen (l : List UInt8) : Option Nat :=
  if hasPrefix bsc l then some (4 + spanLen isDigit (l.drop 4))
  else if hasPrefix jsc l then
    let k := 4 + spanLen isAlpha (l.drop 4)
    some (k + dashLen (l.drop k))
  else if hasPrefix cve l then
    let k := 4 + spanLen isDigit (l.drop 4)
    some (k + dashLen (l.drop k))
  else none

/-- `print_relevant_labels`, tools/patches.c:289-371, from `head` on: `l` is the rest of the buffer (with the NUL at its end).
The labels printed; `none` if a byte behind the buffer is read (`*head` with nothing left).  The byte behind a label is
overwritten by a NUL and skipped, so that what is printed is the label. -/
def scan (l : List UInt8) : Option (List Str) :=
  match l with
  | [] => none
  | 0 :: _ => some []
  | c :: r =>
    match labelLen (c :: r) with
    | some k => (scan ((c :: r).drop (k + 1))).map (((c :: r).take k) :: ·)
    | none => scan r
termination_by l.length
decreasing_by
  · simp only [List.length_drop, List.length_cons]; omega
  · simp

/-! ### Comments -/

/-- `128 * 1024`. -/
def chunk : Nat := 131072

/-- The buffer for comments of the packer: contents (with whatever `realloc` leaves there), position, size. -/
structure Comments where
  mem : Mem
  pos : Nat
  size : Nat

/-- The growth of the buffer, tools/packer.c:481-486. -/
def newSize (c : Comments) (n : Nat) : Nat := if c.size ≤ c.pos + (n + 1) then c.size + chunk else c.size

/-- `read_comment`, tools/packer.c:474-493: `line` is the line with the `!` and, if there is one, the newline.  `none` if a
byte behind the buffer is written. -/
def readComment (c : Comments) (line : Str) : Option Comments :=
  if c.pos + line.length < newSize c line.length then
    some { mem := (c.mem.store c.pos (line.drop 1)).store (c.pos + line.length) [0], pos := c.pos + line.length,
           size := newSize c line.length }
  else none

def readComments : Comments → List Str → Option Comments
  | c, [] => some c
  | c, l :: ls => (readComment c l).bind fun c' => readComments c' ls

/-- What is embedded, tools/packer.c:1211-1234: the string at the beginning of the buffer (`strlen`), here within `n` bytes. -/
def embedded (m : Mem) (n : Nat) : Str := (m.load 0 n).takeWhile (· != 0)

end Verif.Listing
