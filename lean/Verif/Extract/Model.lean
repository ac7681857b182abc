import Verif.Base.Str
import Verif.Base.Mem
import Verif.Text.Model

/-!
Model of `ulp extract` and of how the packer reads a library: the list of symbols, the build id, the JSON
form, and merging with debug information (tools/extract.c, tools/packer.c).

libelf and json-c are taken at their word: libelf hands out the symbol tables and notes of the file, and
json-c writes and reads back trees of objects, arrays, strings without NUL and 32-bit integers.
-/

namespace Verif.Extract

abbrev Bytes := List UInt8

/-- `BUILDID_LEN`, include/ulp_common.h. -/
def buildIdLen : Nat := 20

/-- An entry of a symbol table of the file (`GElf_Sym`, with the name looked up). -/
structure RawSym where
  name : Str
  value : BitVec 64
  size : BitVec 64
  info : UInt8
  other : UInt8
  /-- `st_shndx`; 0 is `SHN_UNDEF`, a symbol that the file only uses. -/
  shndx : Nat
deriving DecidableEq, Repr

/-- `struct symbol`, tools/extract.h:17-36. -/
structure Sym where
  name : Str
  offset : BitVec 64
  size : BitVec 32
  info : UInt8
  other : UInt8
deriving DecidableEq, Repr

/-- `struct ulp_so_info`, tools/extract.h:41-51. -/
structure SoInfo where
  name : Str
  buildId : Bytes
  symbols : List Sym
deriving DecidableEq, Repr

/-- Result of a piece of the tool: a value, an error it reports, an abort by an assertion, or undefined
behaviour. -/
inductive Res (α : Type) where
  | ok (a : α)
  | err
  | abort
  | ub
deriving DecidableEq, Repr

/-! ### Symbols -/

/-- The symbol made of one entry, tools/extract.c:285-290. -/
def mkSym (r : RawSym) : Sym := ⟨r.name, r.value, r.size.setWidth 32, r.info, r.other⟩

/-- `get_list_of_symbols_in_section`, tools/extract.c:253-296: each symbol with a name is put before the
others.  `none` is a missing section. -/
def listOfSymbols : Option (List RawSym) → List Sym
  | none => []
  | some l => l.foldl (fun acc r => if r.name = [] then acc else mkSym r :: acc) []

/-- What libelf finds in a file: `.dynsym`, `.symtab` and the contents of `.note.gnu.build-id`. -/
structure Elf where
  dynsym : Option (List RawSym)
  symtab : Option (List RawSym)
  note : Option Bytes

/-- `build_symbols_list`, tools/extract.c:309-329. -/
def buildSymbolsList (e : Elf) : List Sym := listOfSymbols e.dynsym ++ listOfSymbols e.symtab

/-- `get_symbol_with_name`, tools/extract.c:634-648. -/
def getSymbol (i : SoInfo) (n : Str) : Option Sym := i.symbols.find? (fun s => s.name = n)

/-! ### Build id -/

/-- Round up to a multiple of 4 (notes of `ELF_T_NHDR` data). -/
def align4 (n : Nat) : Nat := (n + 3) / 4 * 4

/-- `gelf_getnote(d, offset, ...)` of libelf: type, start and size of the descriptor of the note at
`offset`; `none` if it returns 0.  The offset of the next note, which it returns otherwise, is the
fourth component. -/
def getNote (d : Bytes) (offset : Nat) : Option (Nat × Nat × Nat × Nat) :=
  if d.length < offset + 12 then none
  else
    let word (k : Nat) := leVal ((d.drop (offset + k)).take 4)
    let namesz := word 0
    let descsz := word 4
    let type := word 8
    if d.length < offset + 12 + namesz then none
    else
      let descp := align4 (offset + 12 + namesz)
      if d.length < descp + descsz then none
      else some (type, descp, descsz, align4 (descp + descsz))

/-- `NT_GNU_BUILD_ID`. -/
def NT_GNU_BUILD_ID : Nat := 3

/-- The loop of `get_build_id`, tools/packer.c:929-935: descriptor of the build id, or that there is none;
`none` if it did not end within `fuel` iterations.  `n` is assigned the result of the comparison, which
is 1. -/
def noteLoop (d : Bytes) : (fuel : Nat) → (offset : Nat) → Option (Option (Nat × Nat))
  | 0, _ => none
  | fuel + 1, offset => match getNote d offset with
    | none => some none
    | some (type, descp, descsz, _) =>
      if type = NT_GNU_BUILD_ID then some (some (descp, descsz))
      else noteLoop d fuel 1

/-- `get_build_id`, tools/packer.c:914-945, to a buffer of `cap` bytes; `none` if it does not return
within `fuel` iterations. -/
def getBuildId (cap : Nat) (d : Bytes) (fuel : Nat) : Option (Res Bytes) :=
  match noteLoop d fuel 0 with
  | none => none
  | some none => some .err
  | some (some (descp, descsz)) =>
    if cap < descsz then some .ub else some (.ok ((d.drop descp).take descsz))

/-- `get_elf_buildid`, tools/packer.c:107-121, called with a buffer of `BUILDID_LEN` bytes
(tools/extract.c:358). -/
def getElfBuildid (e : Elf) (fuel : Nat) : Option (Res Bytes) :=
  match e.note with
  | none => some .err
  | some d => match getBuildId buildIdLen d fuel with
    | some (.ok id) => if id.length = buildIdLen then some (.ok id) else some .abort
    | r => r

/-- `parse_so_elf`, tools/extract.c:338-379, of a file that libelf can open (allocations succeed). -/
def parseSoElf (path : Str) (e : Elf) (fuel : Nat) : Option (Res SoInfo) :=
  match getElfBuildid e fuel with
  | some (.ok id) => some (.ok ⟨getBasename path, id, buildSymbolsList e⟩)
  | some .err => some .err
  | some .abort => some .abort
  | some .ub => some .ub
  | none => none

/-! ### JSON -/

/-- A symbol in JSON form: the integers are those of `json_object_new_int`, 32 bits with sign. -/
structure JSym where
  name : Str
  offset : BitVec 32
  size : BitVec 32
  info : BitVec 32
  other : BitVec 32
deriving DecidableEq, Repr

/-- The library node of the JSON form. -/
structure JLib where
  name : Str
  buildId : Str
  symbols : List JSym
deriving DecidableEq, Repr

/-- `get_json_symbol`, tools/extract.c:181-195. -/
def jsonSym (s : Sym) : JSym :=
  ⟨s.name, s.offset.setWidth 32, s.size, s.info.toBitVec.setWidth 32, s.other.toBitVec.setWidth 32⟩

/-- `write_ulp_so_info_json`, tools/extract.c:204-241. -/
def writeJson (i : SoInfo) : JLib := ⟨i.name, Text.buildidToString i.buildId, i.symbols.map jsonSym⟩

/-- One symbol read back, tools/extract.c:408-427: `json_object_get_int` gives an `int`, which is converted
to an unsigned 64-bit offset. -/
def parseSym (j : JSym) : Sym :=
  ⟨j.name, j.offset.signExtend 64, (j.size.signExtend 64).setWidth 32, ⟨j.info.setWidth 8⟩, ⟨j.other.setWidth 8⟩⟩

/-- `parse_so_json`, tools/extract.c:497-548, and `parse_symbols_json`, 391-441, of a file with all nodes
of the expected types. -/
def parseJson (j : JLib) : Res SoInfo :=
  match Text.strToBuildid j.buildId with
  | .ok id => .ok ⟨j.name, id, j.symbols.map parseSym⟩
  | .einval => .err
  | _ => .ub

/-! ### Debug information -/

/-- `merge_ulp_so_infos`, tools/extract.c:650-689: different build ids only give a warning (the second
component). -/
def merge (a b : SoInfo) : SoInfo × Bool := ({ a with symbols := a.symbols ++ b.symbols }, a.buildId ≠ b.buildId)

/-- `run_extract`, tools/extract.c:691-737, with the results of `parse_so_elf` for the library and for the
debug information (if given); the output file can be written.  The result is what is written. -/
def runExtract (lib : Res SoInfo) (debug : Option (Res SoInfo)) : Res JLib :=
  match lib with
  | .ok i => match debug with
    | none => .ok (writeJson i)
    | some (.ok d) => .ok (writeJson (merge i d).1)
    -- `parse_so_elf` returned NULL, which `merge_ulp_so_infos` dereferences
    | some .err => .ub
    | some .abort => .abort
    | some .ub => .ub
  | .err => .err
  | .abort => .abort
  | .ub => .ub

end Verif.Extract
