import Verif.Base.Err
import Verif.Base.Str

/-!
Model of lib/symbol_loader.c: how libpulp, inside the process, finds the addresses of functions, the
load address and the TLS module of the library named by a livepatch, and the locks of the dynamic
linker.

The objects of the process are a list, in the order of `dl_iterate_phdr`. The memory that the
dynamic section of an object points at is abstracted: a symbol table is a function from indices to
symbols with their names (the table does not know its own size, lib/symbol_loader.c:146, 151), and
the second word of the hash section is a number.
-/

namespace Verif.SymLoad

/-- `Elf64_Sym` with the name its `st_name` leads to in the string table. -/
structure Sym where
  name : Str
  value : Nat
  size : Nat
deriving DecidableEq, Repr

/-- An entry of the dynamic section, as far as the code looks at it, lib/symbol_loader.c:189-225. -/
inductive Dyn where
  | symtab (t : Nat → Sym)
  | strtab
  | syment (v : Nat)
  | hash (nchains : Nat)
  | other

/-- `struct dl_phdr_info` of one object: name (path), load address, TLS module, and its dynamic
sections (program headers of type `PT_DYNAMIC`; the others are skipped, lib/symbol_loader.c:176-186). -/
structure Obj where
  name : Str
  bias : Nat
  tls : Nat
  dyns : List (List Dyn)

/-- `strncmp(h, n, strlen(n)) == 0`. -/
def startsWith : Str → Str → Bool
  | _, [] => true
  | [], _ :: _ => false
  | h :: hs, n :: ns => h == n && startsWith hs ns

/-- `strstr(h, n) != NULL`. -/
def strstr : Str → Str → Bool
  | [], n => startsWith [] n
  | h :: hs, n => startsWith (h :: hs) n || strstr hs n

/-- "linux-vdso.so.1" -/
def vdso : Str := "linux-vdso.so.1".toUTF8.toList

/-- The three variables that the loop over the dynamic sections fills in (`dynsym`, whether `dynstr`
is set, `num_symbols`), lib/symbol_loader.c:146-151. -/
structure Found where
  dynsym : Option (Nat → Sym)
  dynstr : Bool
  num : Nat

/-- Loop over the entries of one dynamic section, lib/symbol_loader.c:189-225. `none`: the size of a
symbol entry is not the expected one (24), `libpulp_errx` is called and the object skipped. -/
def scanDyn : List Dyn → Found → Option Found
  | [], f => some f
  | .symtab t :: ds, f => scanDyn ds { f with dynsym := some t }
  | .strtab :: ds, f => scanDyn ds { f with dynstr := true }
  | .syment v :: ds, f => if v = 24 then scanDyn ds f else none
  | .hash n :: ds, f => scanDyn ds { f with num := n }
  | .other :: ds, f => scanDyn ds f

/-- Loop over the program headers, lib/symbol_loader.c:176-227. -/
def scanDyns : List (List Dyn) → Found → Option Found
  | [], f => some f
  | d :: ds, f => match scanDyn d f with
    | none => none
    | some f => scanDyns ds f

/-- `get_symbol_by_name`, lib/symbol_loader.c:64-77: entries `i`, ..., `i + n - 1`. -/
def getSymbolByName (t : Nat → Sym) (name : Str) : (n i : Nat) → Option Sym
  | 0, _ => none
  | n + 1, i => if (t i).name = name then some (t i) else getSymbolByName t name n (i + 1)

/-- What a callback of `dl_iterate_phdr` leaves behind, `struct dl_iterate_arg`,
lib/symbol_loader.c:79-103, and whether `libpulp_errx` was called. -/
structure Arg where
  addr : Nat
  size : Nat
  bias : Nat
  errx : Bool
deriving DecidableEq, Repr

/-- `dl_find_symbol` on one object, lib/symbol_loader.c:140-245; the flag is its return value (stop).
`library` is never NULL (lib/symbol_loader.c:268-270), and the check of the structure size
(lib/symbol_loader.c:155-158) succeeds. -/
def findSymbol (library symbol : Str) (o : Obj) (a : Arg) : Arg × Bool :=
  let a := { a with addr := 0, size := 0 }
  if !strstr o.name library then (a, false)
  else if o.name = vdso then (a, false)
  else match scanDyns o.dyns ⟨none, false, 0⟩ with
    | none => ({ a with errx := true }, false)
    | some ⟨some t, true, n⟩ =>
      match getSymbolByName t symbol n 0 with
      | some s => ({ a with addr := s.value, size := s.size, bias := o.bias }, true)
      | none => ({ a with bias := o.bias }, true)
    | some _ => (a, false)

/-- `dl_iterate_phdr(dl_find_symbol, &arg)`. -/
def iterSymbol (library symbol : Str) : List Obj → Arg → Arg
  | [], a => a
  | o :: os, a => match findSymbol library symbol o a with
    | (a, true) => a
    | (a, false) => iterSymbol library symbol os a

/-- The name searched for: the empty one if the library is the program itself,
lib/symbol_loader.c:268-270, 336-338, 351-353. -/
def searchName (progname library : Str) : Str := if library = progname then [] else library

/-- `get_loaded_symbol_addr_size`, lib/symbol_loader.c:262-295: address (0 is NULL) and size.
Addresses are 64-bit. -/
def getLoadedSymbolAddr (objs : List Obj) (progname library symbol : Str) (oldFaddr : Nat) : Nat × Nat :=
  let a := iterSymbol (searchName progname library) symbol objs ⟨0, 0, 0, false⟩
  if oldFaddr ≠ 0 ∧ a.addr ≠ oldFaddr then ((a.bias + oldFaddr) % 2 ^ 64, 0)
  else if a.addr = 0 then (0, 0)
  else ((a.bias + a.addr) % 2 ^ 64, a.size)

/-- `dl_find_base_addr` under `dl_iterate_phdr`, lib/symbol_loader.c:297-328: load address and TLS
module (`none` is -1). -/
def iterBase (library : Str) : List Obj → Nat × Option Nat → Nat × Option Nat
  | [], r => r
  | o :: os, _ =>
    if o.name = vdso then iterBase library os (0xff, none)
    else if !strstr o.name library then iterBase library os (0xff, none)
    else (o.bias, some o.tls)

/-- `get_loaded_library_base_addr`, lib/symbol_loader.c:330-344. -/
def baseAddr (objs : List Obj) (progname library : Str) : Nat :=
  (iterBase (searchName progname library) objs (0, some 0)).1

/-- `get_loaded_library_tls_index`, lib/symbol_loader.c:346-359. -/
def tlsIndex (objs : List Obj) (progname library : Str) : Option Nat :=
  (iterBase (searchName progname library) objs (0, some 0)).2

/-- Which of the declarations of `struct rtld_global` is used to find the locks. -/
inductive Layout where
  | v2_31 | v2_35 | v2_42
deriving DecidableEq, Repr

/-- What `get_ld_global_locks` does. -/
inductive Locks where
  /-- `libpulp_crash`: the program exits with status 1 (lib/error.c:102-111). -/
  | crash
  /-- The lock pointers are set, with this layout at this address. -/
  | at (l : Layout) (rtld : Nat)
  /-- The lock pointers stay NULL. -/
  | unset
deriving DecidableEq, Repr

/-- `_rtld_global` -/
def rtldGlobal : Str := "_rtld_global".toUTF8.toList

/-- `get_ld_global_locks`, lib/symbol_loader.c:376-415, for the two numbers at the start of the
version of the C library. `ldLinux` is `LD_LINUX` (configure.ac:242, 249). -/
def ldGlobalLocks (objs : List Obj) (progname ldLinux : Str) (major minor : Nat) : Locks :=
  let r := (getLoadedSymbolAddr objs progname ldLinux rtldGlobal 0).1
  if r = 0 then .crash
  else if major = 2 then
    if 31 ≤ minor ∧ minor < 35 then .at .v2_31 r
    else if 35 ≤ minor ∧ minor < 42 then .at .v2_35 r
    else if 42 ≤ minor then .at .v2_42 r
    else .crash
  else .unset

end Verif.SymLoad
