import Verif.Listing.Model
import Verif.Inspect.Model
import Verif.Text.Model

/-!
Model of what the tool takes a process for before it looks into it: its name, its owner, and whether libpulp is loaded (common/common.c:118-145,
568-580; tools/patches.c:207-225, 581-603), and of the list of processes that results (with topics Listing and Inspect).
-/

namespace Verif.Names

open Verif.Listing (Entry Query)

/-- What happens with `/proc/<pid>/comm`: it cannot be opened, it can be opened but not read (the process has ended in between), or there is
that text in it. -/
inductive Comm where
  | gone
  | unread
  | text (s : Str)
deriving DecidableEq, Repr

/-- A process, as `/proc` shows it. -/
structure Task where
  pid : Nat
  comm : Comm
  /-- The owner of the file `/proc/<pid>/loginuid`, if there is one. -/
  inode : Option Nat
  /-- The lines of `/proc/<pid>/maps`, if it can be opened. -/
  maps : Option (List Str)
  /-- `attach` succeeds. -/
  attaches : Bool
  proc : Inspect.Proc

/-- `fgets`, with a buffer of `PATH_MAX` bytes: up to the end of the line, which is included.  NUL bytes, which the kernel does not write, are not
modelled. -/
def fgets (c : Str) : Str :=
  (c.takeWhile (· != 10) ++ (c.dropWhile (· != 10)).take 1).take 4095

/-- `get_target_binary_name`, common/common.c:118-145: the name, and what is left in the static buffer; `buf` is what was there before. -/
def binName (buf : Str) : Comm → Str × Str
  | .gone => ("(null)".toUTF8.toList, buf)
  | .unread => (buf, buf)
  | .text c =>
    if c = [] then (buf, buf)
    else ((getBasename (fgets c)).takeWhile (· != 10), (getBasename (fgets c)).takeWhile (· != 10))

/-- `get_process_owner`, common/common.c:568-580. -/
def owner (t : Task) : Nat := t.inode.getD 0

/-- `libpulp_loaded`, tools/patches.c:206-225. -/
def libpulpLoaded (lines : List Str) : Bool := lines.any fun l => SymLoad.strstr l Inspect.pulpName

/-- `has_libpulp_loaded`, tools/patches.c:580-603. -/
def hasLibpulp (t : Task) : Bool :=
  match t.maps with
  | none => false
  | some lines => libpulpLoaded lines

/-- Whether `initialize_data_structures` succeeds, tools/introspection.c:1338-1379; loops that need more than `fuel` steps do not count as
success. -/
def collects (fuel : Nat) (t : Task) : Bool :=
  t.attaches && match Inspect.inspect t.proc fuel with
    | some (.ok _) => true
    | _ => false

/-- What the tool finds out about a process, tools/patches.c:69-100; `users` is `getpwuid`. -/
def entry (users : Nat → Option Str) (fuel : Nat) (buf : Str) (t : Task) : Entry :=
  { pid := some t.pid, name := (binName buf t.comm).1, uid := owner t, user := users (owner t), libpulp := hasLibpulp t,
    collects := collects fuel t }

/-- The same for all processes, in the order of `/proc`; the name is kept in the same buffer. -/
def scan (users : Nat → Option Str) (fuel : Nat) : Str → List Task → List Entry
  | _, [] => []
  | buf, t :: ts => entry users fuel buf t :: scan users fuel (binName buf t.comm).2 ts

/-- The system around the tool. -/
structure World where
  users : Nat → Option Str
  self : Nat
  fnmatch : Str → Str → Bool

/-- `strtol (s, NULL, 10)` of a string of digits, assigned to a `uid_t`, tools/patches.c:163-165. -/
def uidOf (s : Str) : Nat := min (s.foldl (fun a c => a * 10 + (c.toNat - 48)) 0) (2 ^ 63 - 1) % 2 ^ 32

/-- The iterator set up by `process_list_begin`, tools/patches.c:141-165. -/
def ask (w : World) (wild user : Option Str) : Query :=
  { wildcard := wild, userWildcard := user, targetUid := if Text.isnumber user then uidOf (user.getD []) else 0, self := w.self, fnmatch := w.fnmatch }

/-- The processes that `FOR_EACH_ULP_PROCESS_FROM_USER_WILDCARD` goes through, tools/patches.c:138-203: a number stands for the process of that
number, about which only data is collected, tools/patches.c:151-160. -/
def found (w : World) (fuel : Nat) (wild user : Option Str) (ts : List Task) : List Nat :=
  if Text.isnumber wild then
    match ts.find? (fun t => (t.pid : Int) = Text.atoi (wild.getD [])) with
    | some t => if collects fuel t then [t.pid] else []
    | none => []
  else Listing.loop (ask w wild user) (scan w.users fuel [] ts) none

end Verif.Names
