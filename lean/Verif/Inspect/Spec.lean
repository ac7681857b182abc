import Verif.Inspect.Model
import Verif.Ptrace.Props

/-!
What the memory of a dynamically linked process looks like, in the terms of the ELF specification and of
glibc's link.h.
-/

namespace Verif.Inspect.Spec

def Readable (p : Proc) (a n : Nat) : Prop := ∀ i, i < n → p.readable (a + i) = true

/-- There is the number `v` of `n` bytes at `a`. -/
def Num (p : Proc) (a n v : Nat) : Prop := p.mem.load a n = le n v ∧ v < 256 ^ n

/-- There is a string at `a`, and at least 15 readable bytes after it. -/
def HasStr (p : Proc) (a : Nat) (s : Str) : Prop := Ptrace.HoldsString p.mem a s ∧ Readable p a (s.length + 16)

/-- The only value that goes with that key. -/
def Only (l : List (Nat × Nat)) (key val : Nat) : Prop := (key, val) ∈ l ∧ ∀ v, (key, v) ∈ l → v = val

/-- The auxiliary vector, ended by `AT_NULL`. -/
def IsAuxv (b : Bytes) (l : List (Nat × Nat)) : Prop :=
  (∀ x ∈ l, x.1 ≠ 0 ∧ x.1 < 2 ^ 64 ∧ x.2 < 2 ^ 64) ∧
    ∃ end_ rest, b = l.flatMap (fun x => le 8 x.1 ++ le 8 x.2) ++ (le 8 0 ++ le 8 end_) ++ rest

/-- Program headers at `a`: type and `p_vaddr`. -/
def Phdrs (p : Proc) (a : Nat) (l : List (Nat × Nat)) : Prop :=
  Readable p a (56 * l.length) ∧ ∀ i x, l[i]? = some x → Num p (a + 56 * i) 4 x.1 ∧ Num p (a + 56 * i + 16) 8 x.2

/-- A dynamic section at `a`, ended by `DT_NULL`: tag and value. -/
def Dynamic (p : Proc) (a : Nat) (l : List (Nat × Nat)) : Prop :=
  (∀ x ∈ l, x.1 ≠ 0) ∧ Readable p a (16 * l.length + 16) ∧ Num p (a + 16 * l.length) 8 0 ∧
    ∀ i x, l[i]? = some x → Num p (a + 16 * i) 8 x.1 ∧ Num p (a + 16 * i + 8) 8 x.2

/-- The link map from an address on: bias, address of the name, next one; and the name. -/
inductive Chain (p : Proc) : Nat → List Obj → Prop
  | nil : Chain p 0 []
  | cons {a o os} : a ≠ 0 → Readable p a 40 → Num p a 8 o.map.addr → Num p (a + 8) 8 o.map.name → Num p (a + 24) 8 o.map.next →
      HasStr p o.map.name o.name → Chain p o.map.next os → Chain p a (o :: os)

/-- The program: what the kernel put into the auxiliary vector, its program headers, and its dynamic section, from which
the link map is found.  It is loaded with that bias. -/
structure Program (p : Proc) (bias : Nat) (main : LinkMap) : Prop where
  image : ∃ aux phs dyn phdr entry ptPhdr adyn rDebug map, IsAuxv p.auxv aux ∧ Only aux 9 entry ∧ Only aux 3 phdr ∧ Only aux 4 56 ∧ Only aux 5 phs.length ∧
    entry ≠ 0 ∧ phdr ≠ 0 ∧
    Phdrs p phdr phs ∧ Only phs 6 ptPhdr ∧ ptPhdr ≠ 0 ∧ phdr = ptPhdr + bias ∧ Only phs 2 adyn ∧ adyn + bias < 2 ^ 64 ∧
    Dynamic p (adyn + bias) dyn ∧ Only dyn 21 rDebug ∧
    rDebug + 8 < 2 ^ 64 ∧ Readable p (rDebug + 8) 8 ∧ Num p (rDebug + 8) 8 map ∧
    Readable p map 40 ∧ Num p map 8 main.addr ∧ Num p (map + 8) 8 main.name ∧ Num p (map + 24) 8 main.next

/-- A symbol: name and value. -/
structure Symbol where
  name : Str
  value : Nat

/-- The dynamic symbols of an object. -/
def HasSymbols (p : Proc) (t : Tables) (l : List Symbol) : Prop :=
  t.count = l.length ∧ t.dynsym ≠ 0 ∧ t.dynstr ≠ 0 ∧ t.dynsym + 24 * l.length < 2 ^ 64 ∧ Readable p t.dynsym (24 * l.length) ∧
    ∀ i x, l[i]? = some x → ∃ off, Num p (t.dynsym + 24 * i) 4 off ∧ Num p (t.dynsym + 24 * i + 8) 8 x.value ∧
      t.dynstr + off + 16 < 2 ^ 64 ∧ HasStr p (t.dynstr + off) x.name

/-- The headers of a loaded object, with its dynamic section; `hash` is the address of the table of `DT_HASH`. -/
structure Loaded (p : Proc) (o : Obj) (dyn : List (Nat × Nat)) : Prop where
  bias : o.map.addr ≠ 0
  name : o.map.name ≠ 0
  ehdr : Readable p o.map.addr 64
  entsize : Num p (o.map.addr + 54) 2 56
  headers : ∃ phoff phs adyn, Num p (o.map.addr + 32) 8 phoff ∧ Num p (o.map.addr + 56) 2 phs.length ∧ o.map.addr + phoff < 2 ^ 64 ∧
    Phdrs p (o.map.addr + phoff) phs ∧ Only phs 2 adyn ∧ (phs.map (·.1)).count 2 = 1 ∧ o.map.addr + adyn < 2 ^ 64 ∧ Dynamic p (o.map.addr + adyn) dyn

/-- An object with a symbol table that its hash table tells the size of. -/
structure WithSymbols (p : Proc) (o : Obj) (l : List Symbol) : Prop where
  image : ∃ dyn t hash, Loaded p o dyn ∧ Only dyn 6 t.dynsym ∧ Only dyn 5 t.dynstr ∧ Only dyn 4 hash ∧ hash ≠ 0 ∧ hash + 4 < 2 ^ 64 ∧ Readable p (hash + 4) 4 ∧
    Num p (hash + 4) 4 l.length ∧ l.length < 2 ^ 31 ∧ HasSymbols p t l

/-- No two symbols of the same name have different values. -/
def Unambiguous (l : List Symbol) : Prop := ∀ x ∈ l, ∀ y ∈ l, x.name = y.name → x.value = y.value

/-- The address of the symbol of that name in an object loaded with that bias. -/
def address (bias : Nat) (l : List Symbol) (name : Str) : Option Nat :=
  (l.find? fun x => x.name = name).map fun x => (bias + x.value) % 2 ^ 64

/-- The entry points of libpulp, in the order of `Syms`. -/
def names : List Str :=
  ["__ulp_trigger", "__ulp_check_patched", "__ulp_state", "__ulp_get_global_universe", "__ulp_msg_queue", "__ulp_revert_all", "__ulp_metadata_buffer",
    "__ulp_error_state", "__ulp_enable_or_disable_patching", "__ulp_insn_queue", "__ulp_version"].map (·.toUTF8.toList)

/-- The entry points without which it is not libpulp. -/
def required : List Str :=
  ["__ulp_trigger", "__ulp_check_patched", "__ulp_state", "__ulp_get_global_universe", "__ulp_revert_all", "__ulp_metadata_buffer"].map (·.toUTF8.toList)

/-- An object loaded with that bias has the required entry points. -/
def Exports (bias : Nat) (l : List Symbol) : Prop := ∀ n ∈ required, ∃ a, address bias l n = some a ∧ a ≠ 0

/-- The name of the object has `libpulp.so` in it. -/
def Mentions (o : Obj) : Prop := "libpulp.so".toUTF8.toList <:+: o.name

end Verif.Inspect.Spec
