/-!
Model of the search for live patches matching a wildcard: `trigger_many_ulps`, tools/trigger.c:262-367,
with `get_basename` (common/common.c:51-62) and the C library's `dirname`.
-/

namespace Verif.Walk

abbrev Bytes := List UInt8

/-- `/` -/
def slash : UInt8 := 47

/-- `.` -/
def dot : UInt8 := 46

/-- The file system as the walk sees it, not changing during the walk.  `ls` is what opendir and readdir
give, in their order, with the entries `.` and `..` (none: opendir fails); `isDir` is `is_directory`
(common/common.c:558-566), which follows symbolic links. -/
structure Fs where
  ls : Bytes → Option (List Bytes)
  isDir : Bytes → Bool

/-- The last `/` of a string splits it (`strrchr`). -/
def splitLast : Bytes → Option (Bytes × Bytes)
  | [] => none
  | c :: cs =>
    match splitLast cs with
    | some (a, b) => some (c :: a, b)
    | none => if c = slash then some ([], cs) else none

/-- `get_basename`, common/common.c:51-62. -/
def basename (p : Bytes) : Bytes :=
  match splitLast p with
  | some (_, b) => b
  | none => p

/-- Without the slashes at the end. -/
def stripSlashes (p : Bytes) : Bytes := (p.reverse.dropWhile (· == slash)).reverse

/-- `dirname` of the C library (as in glibc): slashes at the end do not count. -/
def dirname (p : Bytes) : Bytes :=
  let q := if (stripSlashes p).isEmpty then p else stripSlashes p
  match splitLast q with
  | none => [dot]
  | some (a, _) =>
    if (stripSlashes a).isEmpty then (if a = [slash] then [slash, slash] else [slash]) else stripSlashes a

/-- How the walk may go wrong: writing past `buffer` (undefined), or recursion deeper than the fuel. -/
inductive Fault where
  | overflow
  | deep
deriving DecidableEq, Repr

/-- The files that `trigger_one_process` is called for, in order. -/
abbrev Tried := Except Fault (List Bytes)

/-- One after the other. -/
def both (a b : Tried) : Tried :=
  match a with
  | .error e => .error e
  | .ok x =>
    match b with
    | .error e => .error e
    | .ok y => .ok (x ++ y)

/-- `ULP_PATH_LEN`, include/ulp_common.h:39. -/
def pathLen : Nat := 256

/-- The part of a name from the last dot, `strrchr(name, '.')`. -/
def extension : Bytes → Option Bytes
  | [] => none
  | c :: cs =>
    match extension cs with
    | some e => some e
    | none => if c = dot then some (c :: cs) else none

/-- `.so` -/
def dotSo : Bytes := [46, 115, 111]

/-- tools/trigger.c:334-350: the file in `buffer` is tried if the name ends in `.so` and matches. -/
def tryFile (fnmatch : Bytes → Bytes → Bool) (w name buffer : Bytes) : List Bytes :=
  if extension name = some dotSo ∧ fnmatch w name = true then [buffer] else []

/-- A string is copied to `buffer` (tools/trigger.c:284-285, 306, 315-323), with the 0 at its end; the
walk goes on with `k`. -/
def store (b : Bytes) (k : Tried) : Tried := if b.length + 1 > pathLen then .error .overflow else k

/-- The body of the loop over the entries, tools/trigger.c:289-359; `sub` is the recursive call. -/
def entry (fs : Fs) (fnmatch : Bytes → Bytes → Bool) (recursive : Bool) (sub : Bytes → Tried)
    (folder w name : Bytes) : Tried :=
  if folder.length + 1 + name.length ≥ pathLen then .ok []
  else if name = [dot] ∨ name = [dot, dot] then .ok []
  else
    let buffer := folder ++ slash :: name
    store buffer <|
    if fs.isDir buffer then
      if recursive then
        if buffer.length + w.length + 1 ≥ pathLen then .ok []
        else
          let buffer := (if buffer.getLast? = some slash then buffer else buffer ++ [slash]) ++ w
          -- what the call returns is not used, and `buffer` goes on as it is (:325)
          store buffer <|
          both (sub buffer) (.ok (tryFile fnmatch w name buffer))
      else .ok []
    else .ok (tryFile fnmatch w name buffer)

/-- The loop, tools/trigger.c:288-360. -/
def entries (fs : Fs) (fnmatch : Bytes → Bytes → Bool) (recursive : Bool) (sub : Bytes → Tried)
    (folder w : Bytes) : List Bytes → Tried
  | [] => .ok []
  | n :: ns =>
    both (entry fs fnmatch recursive sub folder w n) (entries fs fnmatch recursive sub folder w ns)

/-- `trigger_many_ulps`, tools/trigger.c:262-367; `fuel` bounds the depth of the recursion. -/
def walk (fs : Fs) (fnmatch : Bytes → Bytes → Bool) (recursive : Bool) : (fuel : Nat) → Bytes → Tried
  | 0, _ => .error .deep
  | fuel + 1, path =>
    match fs.ls (dirname path) with
    | none => .ok []
    | some names =>
      store (dirname path ++ [slash]) <|
      entries fs fnmatch recursive (walk fs fnmatch recursive fuel) (dirname path) (basename path) names

end Verif.Walk
