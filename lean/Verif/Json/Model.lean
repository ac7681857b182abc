import Verif.Extract.Model

/-!
# Reading the description of a library from any JSON file

`Verif.Extract` reads back what `ulp extract` has written.  Here the file is any JSON file: edited, cut, written by
another program (`parse_so_json` and `parse_symbols_json`, tools/extract.c:391-548, `ulp_so_info_open`, 560-586).

The text of the file is read by json-c, which is not part of the project: `json_object_from_file` gives a tree or
nothing.  The functions of json-c that walk the tree are modelled from its documentation:

* `json_object_object_get` gives the value of the last entry with the key, and NULL if there is none or the value is not
  an object; JSON's `null` is NULL as well;
* `json_object_get_string` gives NULL for NULL, the string (which ends at a NUL byte for C) for a string, and the JSON
  text for all else;
* `json_object_get_int` gives 0 for NULL, arrays and objects, 0 or 1 for booleans, and the nearest 32-bit number for
  numbers; what it makes of strings and of numbers with fractions is a parameter;
* `json_object_array_length` asserts that its argument is an array (or dereferences NULL where json-c is built without
  assertions).

All allocations succeed.
-/

namespace Verif.Json

open Verif.Extract

/-- A JSON value; numbers with fractions are known by their text only. -/
inductive J where
  | null
  | bool (b : Bool)
  | int (i : Int)
  | double (s : Str)
  | str (s : Str)
  | arr (l : List J)
  | obj (l : List (Str × J))

/-- What json-c makes of values that are not of the kind asked for. -/
structure Kit where
  /-- `json_object_to_json_string` -/
  text : J → Str
  /-- `json_object_get_int` of a string -/
  strInt : Str → Int
  /-- `json_object_get_int` of a number with a fraction -/
  dblInt : Str → Int

/-- `json_object_object_get`; `null` is NULL. -/
def get (j : J) (k : Str) : J :=
  match j with
  | .obj l => (l.reverse.lookup k).getD .null
  | _ => .null

/-- `json_object_get_string`, as a C string; `none` is NULL. -/
def getString (kit : Kit) : J → Option Str
  | .null => none
  | .str s => some (s.takeWhile (· != 0))
  | j => some (kit.text j)

/-- The nearest number of 32 bits. -/
def clamp (i : Int) : Int := max (-2147483648) (min 2147483647 i)

/-- `json_object_get_int` -/
def getInt (kit : Kit) : J → Int
  | .bool b => if b then 1 else 0
  | .int i => clamp i
  | .double s => clamp (kit.dblInt s)
  | .str s => clamp (kit.strInt s)
  | _ => 0

/-- "library" -/
def kLibrary : Str := [108, 105, 98, 114, 97, 114, 121]
/-- "name" -/
def kName : Str := [110, 97, 109, 101]
/-- "buildid" -/
def kBuildid : Str := [98, 117, 105, 108, 100, 105, 100]
/-- "symbols" -/
def kSymbols : Str := [115, 121, 109, 98, 111, 108, 115]
/-- "offset" -/
def kOffset : Str := [111, 102, 102, 115, 101, 116]
/-- "size" -/
def kSize : Str := [115, 105, 122, 101]
/-- "st_info" -/
def kInfo : Str := [115, 116, 95, 105, 110, 102, 111]
/-- "st_other" -/
def kOther : Str := [115, 116, 95, 111, 116, 104, 101, 114]

/-- One round of the loop of `parse_symbols_json`, tools/extract.c:406-427; `none` is `strdup(NULL)`. -/
def symbolOf (kit : Kit) (o : J) : Option Sym :=
  (getString kit (get o kName)).map fun n =>
    { name := n
      offset := BitVec.ofInt 64 (getInt kit (get o kOffset))
      size := BitVec.ofInt 32 (getInt kit (get o kSize))
      info := ⟨BitVec.ofInt 8 (getInt kit (get o kInfo))⟩
      other := ⟨BitVec.ofInt 8 (getInt kit (get o kOther))⟩ }

/-- The loop of `parse_symbols_json`, tools/extract.c:405-438. -/
def symbolsLoop (kit : Kit) : List J → Res (List Sym)
  | [] => .ok []
  | o :: l =>
    match symbolOf kit o with
    | none => .ub
    | some s =>
      match symbolsLoop kit l with
      | .ok ss => .ok (s :: ss)
      | r => r

/-- `parse_symbols_json`, tools/extract.c:391-441: the length is asked for before the kind of the value is looked at. -/
def parseSymbols (kit : Kit) : J → Res (List Sym)
  | .arr l => symbolsLoop kit l
  | _ => .abort

/-- `parse_so_json`, tools/extract.c:497-548, from the tree that `json_object_from_file` gives (`null` if it gives
none). -/
def parseTree (kit : Kit) (root : J) : Res SoInfo :=
  match root with
  | .null => .err
  | root =>
    match get root kLibrary with
    | .null => .err
    | library =>
      match getString kit (get library kName) with
      | none => .err
      | some name =>
        match getString kit (get library kBuildid) with
        | none => .err
        | some id =>
          match Text.strToBuildid id with
          | .einval => .err
          | .ok id =>
            match parseSymbols kit (get library kSymbols) with
            | .ok l => .ok ⟨name, id, l⟩
            | .err => .err
            | .abort => .abort
            | .ub => .ub
          | _ => .ub

/-- `get_json_symbol`, tools/extract.c:181-195. -/
def symbolTree (s : Sym) : J :=
  .obj [(kName, .str s.name), (kOffset, .int (jsonSym s).offset.toInt), (kSize, .int (jsonSym s).size.toInt),
    (kInfo, .int (jsonSym s).info.toInt), (kOther, .int (jsonSym s).other.toInt)]

/-- `write_ulp_so_info_json`, tools/extract.c:204-241. -/
def treeOf (i : SoInfo) : J :=
  .obj [(kLibrary, .obj [(kName, .str i.name), (kBuildid, .str (Text.buildidToString i.buildId)),
    (kSymbols, .arr (i.symbols.map symbolTree))])]

/-- What a file is for `ulp_so_info_open`, tools/extract.c:560-586. -/
inductive Kind where
  | refused
  | elf
  | json
deriving DecidableEq, Repr

/-- `ulp_so_info_open`, tools/extract.c:560-586, up to the choice of the reader. -/
def kindOf (file : Option Bytes) : Kind :=
  match file with
  | none => .refused
  | some b => if (b.take 5).length ≠ 5 then .refused else if (b.take 5).take 4 = [127, 69, 76, 70] then .elf else .json

end Verif.Json
