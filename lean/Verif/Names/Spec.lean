import Verif.Names.Model
import Verif.Inspect.Spec

/-!
What Linux shows in `/proc`, and what is asked for.
-/

namespace Verif.Names

open Verif.Inspect (Obj LinkMap)
open Verif.Inspect.Spec

/-- The process runs the program of that name (the last part of its path) and has not changed its own name since: `comm` has its first 15 bytes. -/
def Task.Runs (t : Task) (prog : Str) : Prop := t.comm = .text (prog.take 15 ++ [10])

/-- What the kernel writes: names of at most 15 bytes. -/
def Task.Kernel (t : Task) : Prop := ∀ c, t.comm = .text c → ∃ n, n.length ≤ 15 ∧ c = n ++ [10]

/-- A name that fits. -/
def Short (prog : Str) : Prop := prog.length ≤ 15 ∧ 47 ∉ prog ∧ 10 ∉ prog

/-- A wildcard without special characters: it is matched by itself only. -/
def Literal (w : World) (s : Str) : Prop := ∀ x, w.fnmatch s x = true → x = s

/-- A mapping of a file: addresses, permissions, offset, device and inode; and the path. -/
structure Mapping where
  head : Str
  path : Str

/-- What may be in the head of a line: digits and letters of numbers in hexadecimal, `rwxps`, `-`, `:` and blanks. -/
def headChars : Str := "0123456789abcdefrwxps-: ".toUTF8.toList

def Mapping.Valid (m : Mapping) : Prop := ∀ c ∈ m.head, c ∈ headChars

def Mapping.line (m : Mapping) : Str := m.head ++ m.path ++ [10]

/-- These files are mapped. -/
def Task.Maps (t : Task) (ms : List Mapping) : Prop := t.maps = some (ms.map Mapping.line) ∧ ∀ m ∈ ms, m.Valid

def pulp : Str := "libpulp.so".toUTF8.toList

/-- A file is mapped whose path has `libpulp.so` in it. -/
def Task.MapsPulp (t : Task) : Prop := ∃ ms, t.Maps ms ∧ ∃ m ∈ ms, pulp <:+: m.path

/-- Files are mapped, none of them with such a path. -/
def Task.Plain (t : Task) : Prop := ∃ ms, t.Maps ms ∧ ∀ m ∈ ms, ¬ pulp <:+: m.path

/-- libpulp is loaded and its constructor has run (see topic Inspect). -/
structure Task.Live (t : Task) : Prop where
  maps : t.MapsPulp
  attaches : t.attaches = true
  image : ∃ (bias : Nat) (main : LinkMap) (objs : List Obj) (syms : Obj → List Symbol) (o : Obj) (state : Nat),
    Program t.proc bias main ∧ Chain t.proc main.next objs ∧
    (∀ x ∈ objs, Mentions x → WithSymbols t.proc x (syms x) ∧ Unambiguous (syms x)) ∧ o ∈ objs ∧ Mentions o ∧
    (∀ x ∈ objs, Mentions x → (Exports x.map.addr (syms x) ↔ x = o)) ∧
    address o.map.addr (syms o) "__ulp_state".toUTF8.toList = some state ∧ Readable t.proc state 16 ∧ t.proc.mem state ≠ 0

/-- A process without libpulp that has mapped some file with such a path. -/
structure Task.Impostor (t : Task) : Prop where
  maps : t.MapsPulp
  image : ∃ (bias : Nat) (main : LinkMap) (objs : List Obj), Program t.proc bias main ∧ Chain t.proc main.next objs ∧ ∀ x ∈ objs, ¬ Mentions x

/-- The process belongs to that user; the files in `/proc` of a process that is not dumpable (as after running a setuid program) belong to root. -/
def Task.Owned (t : Task) (uid : Nat) (dumpable : Bool) : Prop := t.inode = some (if dumpable then uid else 0)

end Verif.Names
