import Mathlib.Logic.Function.Basic
import Verif.Base.Str

/-!
# Looking at the libraries of a process that is loading and unloading some

To find out what is loaded, the tools attach to the main thread of a process (`initialize_data_structures`,
tools/introspection.c:1336-1377), which stops this thread and no other, and walk over the link map of the dynamic loader
(`dig_main_link_map`, :379-419, and `parse_libs_dynobj`, :1287-1325).  Other threads can call `dlopen` and `dlclose`
meanwhile.

What the loader does is after glibc: `_dl_add_to_namespace_list` (elf/dl-object.c) appends to the list, and
`_dl_close_worker` (elf/dl-close.c) takes an element out of it, whose memory is then freed and may be used for anything,
be it for the next library.

Simplifications: reading a `struct link_map` together with its name is one step, as is linking or unlinking one; `l_prev` is
left out, as the tools do not use it.
-/

namespace Verif.Moving

/-- What the tools use of a `struct link_map`: its name and `l_next`, where 0 is NULL. -/
structure Node where
  name : Str
  next : Nat
deriving DecidableEq

/-- The process: what its memory holds at addresses where there is or was a `struct link_map` (`none`: this cannot be
read), and where the elements of the list are, in its order; the first is that of the program itself. -/
structure Proc where
  mem : Nat → Option Node
  list : List Nat

/-- What the process does. -/
inductive Step : Proc → Proc → Prop where
  /-- Memory that is not part of the list is used for anything. -/
  | scribble {p a v} : a ∉ p.list → Step p ⟨Function.update p.mem a v, p.list⟩
  /-- `dlopen`: an element that has been set up is appended. -/
  | link {mem l z nd a n} : a ∉ l ++ [z] → a ≠ 0 → mem a = some ⟨n, 0⟩ → mem z = some nd →
      Step ⟨mem, l ++ [z]⟩ ⟨Function.update mem z (some { nd with next := a }), l ++ [z] ++ [a]⟩
  /-- `dlclose`: the element `a` is taken out of the list, of which it is not the first. -/
  | unlink {mem l r z nd a na} : mem z = some nd → mem a = some na →
      Step ⟨mem, l ++ [z] ++ a :: r⟩ ⟨Function.update mem z (some { nd with next := na.next }), l ++ [z] ++ r⟩

/-- The tool: where it reads next, the names that it has read, and whether reading failed. -/
structure Tool where
  cursor : Nat
  seen : List Str
  failed : Bool

/-- `dig_main_link_map` reads the first element, tools/introspection.c:412-416, and with it `l_next`, :1294. -/
def Tool.start (nd : Node) : Tool := ⟨nd.next, [], false⟩

/-- One round of the loop of `parse_libs_dynobj`, tools/introspection.c:1295-1300, with `get_libname_dynobj`, :1244-1277. -/
def Tool.round (mem : Nat → Option Node) (t : Tool) : Tool :=
  match mem t.cursor with
  | some nd => ⟨nd.next, t.seen ++ [nd.name], t.failed⟩
  | none => ⟨t.cursor, t.seen, true⟩

/-- The loop has ended. -/
def Tool.ended (t : Tool) : Prop := t.cursor = 0 ∨ t.failed = true

/-- The process and the tool at work.  The list of the process is always one of those that `K` allows. -/
inductive Run (K : List Nat → Prop) : Proc → Tool → Proc → Tool → Prop where
  | refl {p t} : Run K p t p t
  | proc {p t p1 t1 p2} : Run K p t p1 t1 → Step p1 p2 → K p2.list → Run K p t p2 t1
  | tool {p t p1 t1} : Run K p t p1 t1 → ¬ t1.ended → Run K p t p1 (t1.round p1.mem)

end Verif.Moving
