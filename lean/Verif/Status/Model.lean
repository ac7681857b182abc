import Verif.Inspect.Model
import Verif.Base.Str
import Verif.Base.Err

/-!
Model of what `ulp patches` prints about a process: applied live patches, live-patchable libraries, and whether live patching is
enabled (tools/patches.c, tools/introspection.c).

The process does not change meanwhile, and attaching to it and detaching from it succeed; allocations succeed.  Labels of live patches
are in topic Text, parsing of the process in topic Inspect.  Printing is a list of lines; colours are left out.
-/

namespace Verif.Status

open Verif.Inspect (Proc Bytes num wrap readMem)
open Verif.Ptrace (readString cstr)

/-! ### Applied live patches -/

/-- A `char *` of the tool. -/
inductive Ptr where
  | null
  /-- An address of the other process. -/
  | remote
  | str (s : Str)
deriving DecidableEq, Repr

/-- `struct ulp_applied_patch`, include/ulp_common.h:190-211, as the tool has it; `units` and `deps` are set to `NULL`. -/
structure Applied where
  id : Bytes
  lib : Ptr
  container : Ptr
  timestamp : Nat
deriving DecidableEq, Repr

/-- A string of the process, tools/introspection.c:2563-2571: if it cannot be read, the pointer is left as it was.  `none`: not ended after
`fuel` words. -/
def fetch (p : Proc) (a fuel : Nat) : Option Ptr :=
  if a = 0 then some .null
  else match readString p.readable p.mem a fuel with
    | none => none
    | some (.ok buf) => some (.str (cstr buf))
    | some _ => some .remote

/-- Size of the structure, tools/introspection.c:2550-2555: before version 0.3.1 there was no time stamp. -/
def patchSize (version : Nat) : Nat := if version < 1 + 3 * 2 ^ 16 then 72 else 80

/-- `read_ulp_applied_patch`, tools/introspection.c:2536-2583.  What is not read of the structure is 0 (`calloc`).  `none`: not ended with that
fuel. -/
def readApplied (p : Proc) (version : Nat) : (fuel a : Nat) → Option (List Applied)
  | 0, _ => none
  | fuel + 1, a =>
    if a = 0 then some []
    else match readMem p a (patchSize version) with
      | none => some []
      | some b => match fetch p (num b 32 8) fuel, fetch p (num b 40 8) fuel, readApplied p version fuel (num b 56 8) with
        | some lib, some container, some rest => some (⟨b.take 32, lib, container, num b 72 8⟩ :: rest)
        | _, _, _ => none

/-- Of `dynobj_libpulp` (tools/introspection.h:89-131). -/
structure Libpulp where
  state : Nat
  errorState : Nat
  trigger : Nat
  version : Nat
deriving DecidableEq, Repr

/-- `ulp_read_state`, tools/introspection.c:2614-2650. -/
def readState (p : Proc) (l : Libpulp) (fuel : Nat) : Option (List Applied) :=
  if l.state = 0 then some []
  else match readMem p l.state 16 with
    | none => some []
    | some b => readApplied p l.version fuel (num b 8 8)

/-! ### Libraries -/

/-- `struct ulp_dynobj`, tools/introspection.h:89-131, as far as used here; `ehdr` is the value of `get_ehdr_addr`
(tools/introspection.c:535-587): the load bias unless that is 0. -/
structure Object where
  filename : Str
  buildId : Bytes
  version : Nat
  ehdr : Nat
  dynsym : Nat
  /-- `num_symbols`. -/
  count : Int
deriving DecidableEq, Repr

/-- `has_livepatch_loaded`, tools/patches.c:408-425; `none`: `strcmp` of something that is no string. -/
def hasLivepatch (lib : Str) : List Applied → Option Bool
  | [] => some false
  | a :: t => match a.lib with
    | .str s => if getBasename lib = s then some true else hasLivepatch lib t
    | _ => none

inductive Arch where
  | x86_64
  | ppc64le
deriving DecidableEq, Repr

/-- `check_preamble`, tools/arch/x86_64/post-arch.c:116-133, tools/arch/powerpc64le/post-arch.c:54-75. -/
def checkPreamble (arch : Arch) (p : Proc) (a : Nat) : Bool :=
  match arch with
  | .x86_64 => match readMem p a 2 with
    | none => false
    | some b => (b.getD 0 0 = 0x90 ∨ b.getD 0 0 = 0x66) ∧ b.getD 1 0 = 0x90
  | .ppc64le => match readMem p a 12 with
    | none => false
    | some b => b.take 4 = [0, 0, 0, 0x60] ∨ b.drop 8 = [0, 0, 0, 0x60]

/-- The loop of `is_library_livepatchable`, tools/patches.c:481-500; `ret` is the variable of that name, `none`: not initialised. -/
def symLoop (arch : Arch) (p : Proc) (ehdr : Nat) : (k a : Nat) → (ret : Option Bool) → Option Bool
  | 0, _, ret => ret
  | k + 1, a, _ => match readMem p a 24 with
    | none => some false
    | some b =>
      if checkPreamble arch p (wrap (ehdr + num b 8 8)) then some true
      else symLoop arch p ehdr k (wrap (a + 24)) (some false)

/-- `is_library_livepatchable`, tools/patches.c:457-508; `none`: undefined behaviour. -/
def isLivepatchable (arch : Arch) (p : Proc) (patches : List Applied) (o : Object) : Option Bool :=
  match hasLivepatch o.filename patches with
  | none => none
  | some true => some true
  | some false => symLoop arch p o.ehdr (min o.count 8000).toNat o.dynsym none

/-! ### Error state -/

/-- `get_libpulp_error_state_remote`, tools/introspection.c:2661-2689. -/
def errorState (p : Proc) (l : Libpulp) : Err :=
  if l.errorState ≠ 0 then match readMem p l.errorState 4 with
    | none => EUNKNOWN
    | some b => num b 0 4
  else if l.trigger ≠ 0 then EOLDLIBPULP
  else EUNKNOWN

/-! ### Printing -/

inductive Line where
  | process (name : Str)
  | enabled
  | disabledByUser
  | disabled (e : Err)
  | header
  | library (filename : Str) (buildId : Option Bytes) (version : Option Nat)
  | patch (container : Str) (loadedOn : Option Nat)
  | empty
deriving DecidableEq, Repr

/-- `print_remote_err_status`, tools/patches.c:510-536. -/
def statusLine (p : Proc) (l : Libpulp) : Line :=
  let e := errorState p l
  if e = ENONE ∨ e = EOLDLIBPULP then .enabled
  else if e = EUSRBLOCKED then .disabledByUser
  else .disabled e

/-- `print_lib_patches`, tools/patches.c:377-396; `none`: something is used as a string that is none. -/
def printLibPatches (lib : Str) : List Applied → Option (List Line)
  | [] => some []
  | a :: t => match a.lib with
    | .str s =>
      if getBasename lib = s then match a.container, printLibPatches lib t with
        | .str c, some r => some (.patch (getBasename c) (if a.timestamp ≠ 0 then some a.timestamp else none) :: r)
        | _, _ => none
      else printLibPatches lib t
    | _ => none

/-- The loop of `print_process`, tools/patches.c:558-573. -/
def printObjects (arch : Arch) (p : Proc) (patches : List Applied) (buildid : Bool) : List Object → Option (List Line)
  | [] => some []
  | o :: t => match isLivepatchable arch p patches o with
    | none => none
    | some false => printObjects arch p patches buildid t
    | some true => match printLibPatches o.filename patches, printObjects arch p patches buildid t with
      | some r, some rest => some (.library o.filename (if buildid then some o.buildId else none) (if o.version ≠ 0 then some o.version else none) :: r ++ rest)
      | _, _ => none

/-- `release_ulp_applied_patch`, tools/introspection.c:2589-2603: whether only what was allocated is freed. -/
def releaseOk (patches : List Applied) : Bool := patches.all fun a => a.lib ≠ .remote ∧ a.container ≠ .remote

/-- `print_process`, tools/patches.c:538-577: what is printed, `.error` is undefined behaviour, outer `none`: not ended with that fuel.  `name` is the name of the
process, the first object is the program (`dynobj_first`, so there is always one). -/
def printProcess (arch : Arch) (p : Proc) (l : Libpulp) (name : Str) (objs : List Object) (buildid only : Bool) (fuel : Nat) : Option (Except Unit (List Line)) :=
  match readState p l fuel with
  | none => none
  | some patches =>
    if only ∧ patches = [] then some (.ok [])
    else match printObjects arch p patches buildid objs with
      | none => some (.error ())
      | some r => if releaseOk patches then some (.ok (.process (getBasename name) :: statusLine p l :: .header :: r ++ [.empty])) else some (.error ())

end Verif.Status
