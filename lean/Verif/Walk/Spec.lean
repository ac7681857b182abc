import Verif.Walk.Model

/-! Which files a search should find. -/

namespace Verif.Walk

/-- File `name` of directory `d`. -/
def child (d name : Bytes) : Bytes := d ++ slash :: name

/-- A file system: names are not empty, have no slash, and no name is listed twice. -/
structure Sound (fs : Fs) : Prop where
  name : ∀ d names, fs.ls d = some names → ∀ n ∈ names, n ≠ [] ∧ slash ∉ n
  once : ∀ d names, fs.ls d = some names → names.Nodup

/-- `name` is an entry of `d` other than `.` and `..`. -/
def Lists (fs : Fs) (d name : Bytes) : Prop :=
  ∃ names, fs.ls d = some names ∧ name ∈ names ∧ name ≠ [46] ∧ name ≠ [46, 46]

/-- The search goes from directory `d` down to its subdirectory `name`: the path of the wildcard there
must fit in 255 bytes. -/
def Enters (fs : Fs) (w d name : Bytes) : Prop :=
  Lists fs d name ∧ fs.isDir (child d name) = true ∧ (child d name).length + 1 + w.length < 256

/-- Directories at or below `d`. -/
inductive Below (fs : Fs) (w : Bytes) : Bytes → Bytes → Prop where
  | here (d : Bytes) : Below fs w d d
  | down (d name x : Bytes) : Enters fs w d name → Below fs w (child d name) x → Below fs w d x

/-- Directories the search visits. -/
def Visits (fs : Fs) (recursive : Bool) (w d x : Bytes) : Prop :=
  if recursive then Below fs w d x else x = d

/-- A name that ends in `.so` and matches the wildcard. -/
def Matches (fnmatch : Bytes → Bytes → Bool) (w name : Bytes) : Prop :=
  (∃ stem, name = stem ++ [46, 115, 111]) ∧ fnmatch w name = true

/-- The path of a live patch in the directories visited: a file, not a directory, with matching name and
a path of less than 256 bytes. -/
def IsPatch (fs : Fs) (fnmatch : Bytes → Bytes → Bool) (recursive : Bool) (w d p : Bytes) : Prop :=
  ∃ x name, Visits fs recursive w d x ∧ Lists fs x name ∧ fs.isDir (child x name) = false ∧
    Matches fnmatch w name ∧ p = child x name ∧ p.length < 256

/-- What else the search tries: for a directory whose name matches, the wildcard within it. -/
def IsBogus (fs : Fs) (fnmatch : Bytes → Bytes → Bool) (recursive : Bool) (w d p : Bytes) : Prop :=
  recursive = true ∧ ∃ x name, Visits fs recursive w d x ∧ Enters fs w x name ∧ Matches fnmatch w name ∧
    p = child (child x name) w

end Verif.Walk
