import Verif.Dsc.Model
import Verif.Md4.Model

/-!
Model of the rest of `ulp packer`: the id of a live patch, embedding of the metadata by objcopy, and temporary
files (tools/packer.c, tools/elf-extra.c, common/common.c).
-/

namespace Verif.Pack

open Verif.Dsc (Env describe)
open Verif.Metadata (Patch packApply packRevert)

abbrev Bytes := List UInt8

/-- What matters of a live patch container: the build id note and the sections with metadata. -/
structure Lp where
  note : Option Bytes
  sections : List (Str × Bytes)
deriving DecidableEq

/-- What happens when a section is embedded: there is no objcopy, libelf cannot load the container, `execv` fails,
objcopy is killed by a signal, or it exits with a status. -/
inductive Run where
  | missing
  | noLoad
  | execFails
  | signal
  | exit (status : UInt8)
deriving DecidableEq, Repr

/-- `objcopy --add-section` and `--update-section` if they work. -/
def setSection (s : List (Str × Bytes)) (name : Str) (data : Bytes) : List (Str × Bytes) :=
  if (s.lookup name).isSome then s.map fun (n, d) => if n = name then (n, data) else (n, d)
  else s ++ [(name, data)]

/-- `embed_patch_metadata_into_elf`, tools/elf-extra.c:137-196: the value returned and the container after it;
`none` if the child of `vfork` returns from the function, which destroys the stack of its parent.  `ret`
is computed from `ret` instead of the status of the child.  The path of the temporary file has at most 19
characters (common/common.c:195-210), so that the check of the length does not fail. -/
def embed (r : Run) (c : Lp) (name : Str) (data : Bytes) : Option (Nat × Lp) :=
  match r with
  | .missing => some (2, c)
  | .noLoad => some (22, c)
  | .execFails => none
  | .signal => some (0, c)
  | .exit status => some (0, if status = 0 then { c with sections := setSection c.sections name data } else c)

/-- `.ulp`, `.ulp.comments` and `.ulp.rev`. -/
def secUlp : Str := [46, 117, 108, 112]
def secComments : Str := [46, 117, 108, 112, 46, 99, 111, 109, 109, 101, 110, 116, 115]
def secRev : Str := [46, 117, 108, 112, 46, 114, 101, 118]

/-- `parse_build_id`, tools/packer.c:947-978, on the contents of the section; `none` if it does not return within
`fuel` iterations of its loop. -/
def parseBuildId (d : Bytes) (fuel : Nat) : Option (Option Bytes) :=
  match Extract.noteLoop d fuel 0 with
  | none => none
  | some none => some none
  | some (some (descp, descsz)) => some (some ((d.drop descp).take descsz))

/-- The id, tools/packer.c:1001-1008,1028-1031,1061-1072. -/
def mkId (buildId description : Bytes) : Bytes :=
  let first := buildId.take 16
  first ++ List.replicate (16 - first.length) 0 ++ (Md4.md4 description).take 16

/-- `write_patch_id`, tools/packer.c:981-1075, with a description that can be read. -/
def writePatchId (c : Lp) (description : Bytes) (fuel : Nat) : Option (Option Bytes) :=
  match c.note with
  | none => some none
  | some d => (parseBuildId d fuel).map fun b => b.map fun b => mkId b description

/-- How the packer ends: by a memory error, or with an exit status and the container as it is then. -/
inductive Outcome where
  | crash
  | exit (status : Nat) (c : Lp)
deriving DecidableEq

/-- The comments are embedded, tools/packer.c:1211-1232.  A failure sets a variable `ret` of the inner block only: the
rest is skipped and 0 returned.  The second component: whether it goes on. -/
def embedComments (r : Run) (c : Lp) : Option Bytes → Option (Lp × Bool)
  | none => some (c, true)
  | some text => match embed r c secComments (text ++ [0]) with
    | none => none
    | some (ret, c) => some (c, ret = 0)

/-- The metadata is embedded, tools/packer.c:1203-1239 and 1131-1137: `comments` is what `read_comment` collected (topic
Listing), `r1`, `r2`, `r3` is what happens at each embedding.  Temporary files can be written. -/
def embedAll (p : Patch) (comments : Option Bytes) (c : Lp) (r1 r2 r3 : Run) : Outcome :=
  match embed r1 c secUlp (packApply p) with
  | none => .crash
  | some (ret, c) =>
    if ret ≠ 0 then .exit 1 c
    else match embedComments r2 c comments with
      | none => .crash
      | some (c, false) => .exit 0 c
      | some (c, true) => match embed r3 c secRev (packRevert p) with
        | none => .crash
        | some (ret, c) => .exit (if ret ≠ 0 then 1 else 0) c

/-- `run_packer`, tools/packer.c:1149-1256.  `none`: it does not end within `fuel` iterations of the search for the
build id. -/
def runPacker (e : Env) (content : Bytes) (comments : Option Bytes) (c : Lp) (r1 r2 r3 : Run) (fuel : Nat) : Option Outcome :=
  match describe e [] content with
  | .null => some .crash
  | .ub => some .crash
  | .err => some (.exit 1 c)
  | .ok p => match writePatchId c content fuel with
    | none => none
    | some none => some (.exit 1 c)
    | some (some id) => some (embedAll { p with patchId := id } comments c r1 r2 r3)

/-- The loop of `create_path_to_tmp_file`, common/common.c:199-217, from the `i`-th random number on: `conflict` is
never reset.  `used`: whether the file of that number can be opened. -/
def tmpLoop (used : Nat → Bool) (token : Nat → Nat) : (fuel : Nat) → (i : Nat) → (conflict : Bool) → Option Nat
  | 0, _, _ => none
  | fuel + 1, i, conflict =>
    let conflict := if used (token i) then true else conflict
    if conflict then tmpLoop used token fuel (i + 1) conflict
    else some (token i)

/-- `create_path_to_tmp_file`: the number of the file. -/
def tmpPath (used : Nat → Bool) (token : Nat → Nat) (fuel : Nat) : Option Nat := tmpLoop used token fuel 0 false

end Verif.Pack
