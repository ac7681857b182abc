import Verif.Ptrace.Model
import Verif.SymLoad.Model
import Verif.Base.Err

/-!
Model of how the tools find out what is loaded in a process: auxiliary vector, program headers, dynamic section, link
map, symbols of libpulp (tools/introspection.c).

Not modelled here: notes (topic BuildId), the cache of `ENABLE_DLINFO_CACHE`, and allocation failures.
-/

namespace Verif.Inspect

open Verif.Ptrace (readString readStringAllocated cstr)
open Verif.SymLoad (strstr)

abbrev Bytes := List UInt8

/-- A stopped process. -/
structure Proc where
  readable : Nat → Bool
  mem : Mem
  /-- `/proc/<pid>/auxv`. -/
  auxv : Bytes
  /-- What `get_ehdr_addr` finds in `/proc/<pid>/maps` for a program loaded without bias. -/
  ehdr0 : Nat

/-- A number in what was read. -/
def num (b : Bytes) (off n : Nat) : Nat := leVal ((b.drop off).take n)

/-- Addresses have 64 bits. -/
def wrap (a : Nat) : Nat := a % 2 ^ 64

/-- `read_memory`, tools/ptrace.c:243-287 with `USE_VM_READV_WRITEV` (tools/ptrace.c:25), when the kernel transfers all or nothing; what happens
otherwise is in topic Ptrace. -/
def readMem (p : Proc) (a n : Nat) : Option Bytes :=
  if (List.range n).all (fun i => p.readable (a + i)) then some (p.mem.load a n) else none

/-! ### The program -/

/-- Variables of `dig_load_bias`, tools/introspection.c:1048-1056. -/
structure Aux where
  entry : Nat
  phdr : Nat
  phnum : Nat
  phent : Nat
deriving DecidableEq, Repr

/-- The loop over the auxiliary vector, tools/introspection.c:1068-1087; `none`: it ends too early.  `phnum` and `phent` are
of type `int`; numbers of 2^31 and above are not modelled. -/
def auxLoop (b : Bytes) (x : Aux) : Option Aux :=
  if h : b.length < 16 then none
  else
    let type := num b 0 8
    let val := num b 8 8
    let x := if type = 9 then { x with entry := val }
      else if type = 3 then { x with phdr := val }
      else if type = 5 then { x with phnum := val }
      else if type = 4 then { x with phent := val }
      else x
    if type = 0 then some x else auxLoop (b.drop 16) x
termination_by b.length
decreasing_by simp only [List.length_drop]; omega

/-- The loop over program headers, tools/introspection.c:1103-1117: `p_vaddr` of the last `PT_PHDR` and `PT_DYNAMIC`. -/
def phdrLoop (p : Proc) : (k a ptPhdr adyn : Nat) → Option (Nat × Nat)
  | 0, _, ptPhdr, adyn => some (ptPhdr, adyn)
  | k + 1, a, ptPhdr, adyn => match readMem p a 56 with
    | none => none
    | some b =>
      let type := num b 0 4
      let vaddr := num b 16 8
      if type = 6 then phdrLoop p k (a + 56) vaddr adyn
      else if type = 2 then phdrLoop p k (a + 56) ptPhdr vaddr
      else phdrLoop p k (a + 56) ptPhdr adyn

/-- `dig_load_bias`, tools/introspection.c:1045-1130: load bias and address of the dynamic section. -/
def digLoadBias (p : Proc) : Except Err (Nat × Nat) :=
  match auxLoop p.auxv ⟨0, 0, 0, 0⟩ with
  | none => .error EINVAL
  | some x =>
    if x.entry = 0 then .error ENOPENTRY
    else if x.phdr = 0 then .error ENOPHDR
    else if x.phent ≠ 56 then .error ENOPHDR
    else match phdrLoop p x.phnum x.phdr 0 0 with
      | none => .error ETARGETHOOK
      | some (ptPhdr, adyn) =>
        if ptPhdr ≠ 0 then .ok (wrap (x.phdr + 2 ^ 64 - ptPhdr), wrap (adyn + x.phdr + 2 ^ 64 - ptPhdr))
        else .ok (0, adyn)

/-- `struct link_map`, link.h, as far as it is used. -/
structure LinkMap where
  addr : Nat
  name : Nat
  next : Nat
deriving DecidableEq, Repr

def readLinkMap (p : Proc) (a : Nat) : Option LinkMap :=
  (readMem p a 40).map fun b => ⟨num b 0 8, num b 8 8, num b 24 8⟩

/-- The loop of `dig_main_link_map`, tools/introspection.c:388-402; outer `none`: not ended after `fuel` entries. -/
def debugLoop (p : Proc) : (fuel a : Nat) → Option (Except Err Nat)
  | 0, _ => none
  | fuel + 1, a => match readMem p a 16 with
    | none => some (.error ETARGETHOOK)
    | some b =>
      if num b 0 8 = 0 then some (.error ENODEBUGTAG)
      else if num b 0 8 = 21 then some (.ok (num b 8 8))
      else debugLoop p fuel (a + 16)

/-- `dig_main_link_map`, tools/introspection.c:379-419. -/
def digMainLinkMap (p : Proc) (dyn fuel : Nat) : Option (Except Err LinkMap) :=
  match debugLoop p fuel dyn with
  | none => none
  | some (.error e) => some (.error e)
  | some (.ok rDebug) => match readMem p (wrap (rDebug + 8)) 8 with
    | none => some (.error ETARGETHOOK)
    | some b => match readLinkMap p (num b 0 8) with
      | none => some (.error ETARGETHOOK)
      | some l => some (.ok l)

/-! ### One loaded object -/

/-- Where the dynamic symbols of an object are. -/
structure Tables where
  dynsym : Nat
  dynstr : Nat
  count : Nat
deriving DecidableEq, Repr

/-- The loop over the dynamic section, tools/introspection.c:663-703: `(symtab, strtab, hash)` and whether all were found.
Outer `none`: not ended after `fuel` entries, inner: memory that cannot be read. -/
def dynLoop (p : Proc) : (fuel a symtab strtab hash : Nat) → Option (Option (Nat × Nat × Nat × Bool))
  | 0, _, _, _, _ => none
  | fuel + 1, a, symtab, strtab, hash => match readMem p a 16 with
    | none => some none
    | some b =>
      let tag := num b 0 8
      let val := num b 8 8
      let symtab := if tag = 6 then val else symtab
      let strtab := if tag = 5 then val else strtab
      let hash := if tag = 4 then val else hash
      if symtab ≠ 0 ∧ strtab ≠ 0 ∧ hash ≠ 0 then some (some (symtab, strtab, hash, true))
      else if tag = 0 then some (some (symtab, strtab, hash, false))
      else dynLoop p fuel (a + 16) symtab strtab hash

/-- The loop over program headers, tools/introspection.c:645-752, without notes. -/
def objLoop (p : Proc) (bias fuel : Nat) : (k a symtab strtab hash : Nat) → (ran : Bool) → Option (Option (Nat × Nat × Nat))
  | 0, _, symtab, strtab, hash, _ => some (some (symtab, strtab, hash))
  | k + 1, a, symtab, strtab, hash, ran => match readMem p a 56 with
    | none => some none
    | some b =>
      if num b 0 4 = 2 ∧ ran = false then
        match dynLoop p fuel (wrap (bias + num b 16 8)) symtab strtab hash with
        | none => none
        | some none => some none
        | some (some (symtab, strtab, hash, ran)) => objLoop p bias fuel k (a + 56) symtab strtab hash ran
      else objLoop p bias fuel k (a + 56) symtab strtab hash ran

/-- `parse_dynobj_elf_headers`, tools/introspection.c:603-806, without notes.  A number of symbols that is negative as `int`
is given as 0, for which its users do the same. -/
def parseHeaders (p : Proc) (l : LinkMap) (fuel : Nat) : Option (Except Err Tables) :=
  if l.name = 0 then some (.error ENOLINKMAP)
  else
    let ehdr := if l.addr ≠ 0 then l.addr else p.ehdr0
    match readMem p ehdr 64 with
    | none => some (.error ETARGETHOOK)
    | some e =>
      if num e 54 2 ≠ 56 then some (.error ENOPHDR)
      else match objLoop p l.addr fuel (num e 56 2) (wrap (ehdr + num e 32 8)) 0 0 0 false with
        | none => none
        | some none => some (.error ETARGETHOOK)
        | some (some (symtab, strtab, hash)) =>
          if hash ≠ 0 then match readMem p (wrap (hash + 4)) 4 with
            | none => some (.error ETARGETHOOK)
            | some b => some (.ok ⟨symtab, strtab, if num b 0 4 < 2 ^ 31 then num b 0 4 else 0⟩)
          else some (.ok ⟨symtab, strtab, 0⟩)

/-! ### Symbols of libpulp -/

/-- `__ulp`. -/
def pre : Str := [95, 95, 117, 108, 112]

/-- What follows it, tools/introspection.c:897-944, in that order: `_trigger`, `_check_patched`, `_state`,
`_get_global_universe`, `_msg_queue`, `_revert_all`, `_metadata_buffer`, `_error_state`,
`_enable_or_disable_patching`, `_insn_queue`, `_version`. -/
def suffixes : List Str :=
  ["_trigger", "_check_patched", "_state", "_get_global_universe", "_msg_queue", "_revert_all", "_metadata_buffer",
    "_error_state", "_enable_or_disable_patching", "_insn_queue", "_version"].map (·.toUTF8.toList)

/-- The addresses found so far, in the order of `suffixes`; for the last one, the version is read from there. -/
abbrev Syms := List (Option Nat)

/-- The loop of `get_libpulp_extern_symbols`, tools/introspection.c:861-954, with `k` symbols left.  The flag: whether it
ended early since memory could not be read. -/
def symLoop (p : Proc) (bias dynstr : Nat) : (k dynsym : Nat) → (buf : Bytes) → Syms → Syms × Bool
  | 0, _, _, s => (s, false)
  | k + 1, dynsym, buf, s => match readMem p dynsym 4 with
    | none => (s, true)
    | some b => match readMem p (wrap (dynstr + num b 0 4)) 5 with
      | none => (s, true)
      | some start =>
        let buf := start ++ buf.drop 5
        if start = pre then
          match readStringAllocated p.readable p.mem (wrap (dynstr + num b 0 4 + 5)) buf with
          | .ok buf => match readMem p dynsym 24 with
            | none => (s, true)
            | some sym =>
              let s := match suffixes.idxOf? (cstr buf) with
                | some i => s.set i (some (wrap (bias + num sym 8 8)))
                | none => s
              if s.all (·.isSome) then (s, false) else symLoop p bias dynstr k (wrap (dynsym + 24)) buf s
          | _ => (s, true)
        else if s.all (·.isSome) then (s, false) else symLoop p bias dynstr k (wrap (dynsym + 24)) buf s

/-- `get_libpulp_extern_symbols`, tools/introspection.c:841-955. -/
def libpulpSymbols (p : Proc) (bias : Nat) (t : Tables) : Syms :=
  if t.dynsym = 0 ∨ t.dynstr = 0 ∨ t.count = 0 then List.replicate 11 none
  else (symLoop p bias t.dynstr t.count t.dynsym (List.replicate 64 0) (List.replicate 11 none)).1

/-! ### All loaded objects -/

/-- `struct ulp_dynobj`, tools/introspection.h, as far as it is used. -/
structure Obj where
  map : LinkMap
  name : Str
deriving DecidableEq, Repr

/-- The loop over the link map, tools/introspection.c:1290-1296 and 1243-1273: the objects found, the last one first.
Outer `none`: not ended after `fuel` objects (or characters of a name). -/
def libsLoop (p : Proc) : (fuel a : Nat) → List Obj → Option (List Obj)
  | 0, _, _ => none
  | fuel + 1, a, acc =>
    if a = 0 then some acc
    else match readLinkMap p a with
      | none => some acc
      | some l => match readString p.readable p.mem l.name (fuel + 1) with
        | none => none
        | some (.ok buf) => libsLoop p fuel l.next (⟨l, cstr buf⟩ :: acc)
        | some _ => some acc

/-- `libpulp.so`. -/
def pulpName : Str := [108, 105, 98, 112, 117, 108, 112, 46, 115, 111]

/-- The headers of an object are read and, if it is called like libpulp, its symbols, tools/introspection.c:1199-1239:
`none` in the list for what is not known.  Failure to read the headers is not looked at. -/
def objSyms (p : Proc) (o : Obj) (fuel : Nat) : Option Syms :=
  match parseHeaders p o.map fuel with
  | none => none
  | some (.error _) => some (List.replicate 11 none)
  | some (.ok t) => some (libpulpSymbols p o.map.addr t)

/-- All symbols that it must have are there: trigger, check, state, global, revert_all, metadata_buffer. -/
def complete (s : Syms) : Bool := [0, 1, 2, 3, 5, 6].all fun i => decide ((s[i]?.getD none).getD 0 ≠ 0)

/-- The loop over the other objects, tools/introspection.c:1316-1323: the object taken for libpulp, with its symbols. -/
def otherLoop (p : Proc) (fuel : Nat) : List Obj → (best : Obj × Syms) → Option (Obj × Syms)
  | [], best => some best
  | o :: os, best =>
    if strstr o.name pulpName then
      match objSyms p o fuel with
      | none => none
      | some s => otherLoop p fuel os (if complete s then (o, s) else best)
    else otherLoop p fuel os best

/-- `parse_libs_dynobj`, tools/introspection.c:1282-1325: the objects and the one taken for libpulp.  Reading headers of
other objects has no influence on this. -/
def parseLibs (p : Proc) (main : LinkMap) (fuel : Nat) : Option (Except Err (List Obj × Obj × Syms)) :=
  match libsLoop p fuel main.next [] with
  | none => none
  | some objs => match objs.find? (fun o => strstr o.name pulpName) with
    | none => some (.error ENOLIBPULP)
    | some o => match objSyms p o fuel with
      | none => none
      | some s => match otherLoop p fuel (objs.filter (· ≠ o)) (o, s) with
        | none => none
        | some (o, s) => some (.ok (objs, o, s))

/-- `initialize_data_structures` between attaching and detaching, tools/introspection.c:1350-1371 and 1135-1180. -/
def inspect (p : Proc) (fuel : Nat) : Option (Except Err (List Obj × Obj × Syms)) :=
  match digLoadBias p with
  | .error e => some (.error e)
  | .ok (_, dyn) => match digMainLinkMap p dyn fuel with
    | none => none
    | some (.error e) => some (.error e)
    | some (.ok l) => match parseLibs p l fuel with
      | none => none
      | some (.error e) => some (.error e)
      | some (.ok (objs, o, s)) => match readMem p ((s[2]?.getD none).getD 0) 16 with
        | none => some (.error EAGAIN)
        | some b => if num b 0 1 = 0 then some (.error EAGAIN) else some (.ok (objs, o, s))

end Verif.Inspect
