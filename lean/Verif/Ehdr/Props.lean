import Verif.Ehdr.Lemmas
import Verif.Names.Props

namespace Verif.Ehdr

open Verif.Names (Task Short binName)

/-- C200: of a program that is loaded without bias, the tools find where its file is mapped (the first of its mappings), and nothing if it is
not mapped; of other objects it is their bias.  Partial: the name of the program has at most 15 bytes, and no path has a blank in it. -/
theorem C200_program_partial (t : Task) (prog buf : Str) (ht : t.Runs prog) (hs : Short prog) (hn : 32 ∉ prog) (ms : List Mapping)
    (hv : ∀ m ∈ ms, m.Valid) (hb : ∀ m ∈ ms, NoBlank m.path) :
    (∀ bias maps, bias ≠ 0 → ehdrAddr bias maps (binName buf t.comm).1 = some bias) ∧
    (∀ pre m post, ms = pre ++ m :: post → m.Of prog → (∀ x ∈ pre, ¬ x.Of prog) →
      ehdrAddr 0 (some (ms.map Mapping.line)) (binName buf t.comm).1 = some m.start) ∧
    ((∀ m ∈ ms, ¬ m.Of prog) → ehdrAddr 0 (some (ms.map Mapping.line)) (binName buf t.comm).1 = some 0) := by
  rw [Names.runs_name ht hs]
  refine ⟨fun bias maps h => if_pos h, ?_, fun ho => ?_⟩
  · rintro pre m post rfl ho hpre
    unfold ehdrAddr
    rw [if_neg (by simp)]
    dsimp only
    rw [List.map_append, lookAll_other, List.map_cons, lookAll, (noblank_look (hv m (by simp)) (hb m (by simp)) hn).1 ho]
    intro l hl
    obtain ⟨x, hx, rfl⟩ := List.mem_map.mp hl
    exact (noblank_look (hv x (by simp [hx])) (hb x (by simp [hx])) hn).2 (hpre x hx)
  · unfold ehdrAddr
    rw [if_neg (by simp)]
    dsimp only
    rw [← List.append_nil (ms.map _), lookAll_other]
    · rfl
    · intro l hl
      obtain ⟨x, hx, rfl⟩ := List.mem_map.mp hl
      exact (noblank_look (hv x hx) (hb x hx) hn).2 (ho x hx)

/-- C200 is false: a program with a longer name is never found, unless a file is mapped that has the first 15 bytes of it as name. -/
theorem C200_long_name (t : Task) (prog buf : Str) (ht : t.Runs prog) (h47 : 47 ∉ prog) (h10 : 10 ∉ prog) (hn : 32 ∉ prog)
    (ms : List Mapping) (hv : ∀ m ∈ ms, m.Valid) (hb : ∀ m ∈ ms, NoBlank m.path) (ho : ∀ m ∈ ms, ¬ m.Of (prog.take 15)) :
    ehdrAddr 0 (some (ms.map Mapping.line)) (binName buf t.comm).1 = some 0 :=
  (C200_program_partial t (prog.take 15) buf (by unfold Task.Runs at ht ⊢; rw [ht, List.take_take]; rfl)
    ⟨by simp; omega, fun h => h47 (List.mem_of_mem_take h), fun h => h10 (List.mem_of_mem_take h)⟩
    (fun h => hn (List.mem_of_mem_take h)) ms hv hb).2.2 ho

/-- C200 is false: a program in a directory with a blank in its name is not found. -/
theorem C200_blank (t : Task) (prog buf : Str) (ht : t.Runs prog) (hs : Short prog) (hn : 32 ∉ prog) (ms : List Mapping) (hv : ∀ m ∈ ms, m.Valid)
    (hb : ∀ m ∈ ms, (NoBlank m.path ∧ ¬ m.Of prog) ∨
      ∃ d x q, m.path = d ++ [47] ++ x ++ [32] ++ q ++ [47] ++ prog ∧ 32 ∉ d ∧ 32 ∉ x ∧ 47 ∉ x ∧ x ≠ [] ∧ x ≠ prog) :
    ehdrAddr 0 (some (ms.map Mapping.line)) (binName buf t.comm).1 = some 0 := by
  rw [Names.runs_name ht hs]
  unfold ehdrAddr
  rw [if_neg (by simp)]
  dsimp only
  rw [← List.append_nil (ms.map _), lookAll_other]
  · rfl
  · intro l hl
    obtain ⟨m, hm, rfl⟩ := List.mem_map.mp hl
    rcases hb m hm with ⟨h1, h2⟩ | ⟨d, x, q, e, h1, h2, h3, h4, h5⟩
    · exact (noblank_look (hv m hm) h1 hn).2 h2
    · have e' : m.path = (d ++ [47] ++ x) ++ 32 :: (q ++ [47] ++ prog) := by rw [e]; simp
      rw [look_cut (hv m hm) e' (by simp [h1, h2]), last_iff.mp ⟨h3, .inr ⟨d, rfl⟩⟩, if_neg h4, if_neg h5]

/-- C200 is false: if a file is mapped before it whose path has the name of the program up to a blank, it is taken for the program. -/
theorem C200_other_file (t : Task) (prog buf : Str) (ht : t.Runs prog) (hs : Short prog) (h0 : prog ≠ []) (hn : 32 ∉ prog)
    (pre post : List Mapping) (m : Mapping) (hv : ∀ x ∈ pre, x.Valid) (hb : ∀ x ∈ pre, NoBlank x.path ∧ ¬ x.Of prog) (hm : m.Valid)
    (d q : Str) (e : m.path = d ++ [47] ++ prog ++ [32] ++ q) (hd : 32 ∉ d) :
    ehdrAddr 0 (some ((pre ++ m :: post).map Mapping.line)) (binName buf t.comm).1 = some m.start := by
  rw [Names.runs_name ht hs]
  unfold ehdrAddr
  rw [if_neg (by simp)]
  dsimp only
  have e' : m.path = (d ++ [47] ++ prog) ++ 32 :: q := by rw [e]; simp
  rw [List.map_append, lookAll_other, List.map_cons, lookAll,
    look_cut hm e' (by simp [hd, hn]), last_iff.mp ⟨hs.2.1, .inr ⟨d, rfl⟩⟩, if_neg h0, if_pos rfl]
  intro l hl
  obtain ⟨x, hx, rfl⟩ := List.mem_map.mp hl
  exact (noblank_look (hv x hx) (hb x hx).1 hn).2 (hb x hx).2

/-- C201: looking for the program is defined, whatever the process is called and has mapped.  Partial: no part of a path starts with
a blank. -/
theorem C201_defined_partial (bias : Nat) (ms : List Mapping) (hv : ∀ m ∈ ms, m.Valid) (hb : ∀ m ∈ ms, ¬ [47, 32] <:+: m.path) (main : Str) :
    ehdrAddr bias (some (ms.map Mapping.line)) main ≠ none := by
  unfold ehdrAddr
  by_cases h : bias ≠ 0
  · rw [if_pos h]; simp
  · rw [if_neg h]
    dsimp only
    induction ms with
    | nil => simp [lookAll]
    | cons m ms ih =>
      rw [List.map_cons, lookAll]
      have ih' := ih (fun x hx => hv x (List.mem_cons_of_mem _ hx)) (fun x hx => hb x (List.mem_cons_of_mem _ hx))
      have hm := hv m List.mem_cons_self
      by_cases h32 : 32 ∈ m.path
      · obtain ⟨p, q, e, hp⟩ := first_blank h32
        rw [look_cut hm e hp, if_neg]
        · by_cases h1 : getBasename p = main
          · rw [if_pos h1]; simp
          · rw [if_neg h1]; exact ih'
        · intro e0
          obtain ⟨_, h2 | ⟨d, h2⟩⟩ := last_iff.mpr e0
          · have := hm.path.2
            rw [e, h2] at this
            simp at this
          · exact hb m List.mem_cons_self ⟨d, q, by rw [e, h2]; simp⟩
      · rw [look_whole hm h32]
        by_cases h1 : getBasename m.path = main
        · rw [if_pos h1]; simp
        · rw [if_neg h1]; exact ih'

/-- C201 is false: a process that has mapped something whose path has a part that starts with a blank – such as what `memfd_create` makes with the
name `/ x` – makes the tool read 4 GiB behind a string. -/
theorem C201_undefined (main : Str) (hn : 32 ∉ main) (pre post : List Mapping) (m : Mapping) (hv : ∀ x ∈ pre, x.Valid)
    (hb : ∀ x ∈ pre, NoBlank x.path ∧ ¬ x.Of main) (hm : m.Valid) (d q : Str) (e : m.path = d ++ [47, 32] ++ q) (hd : 32 ∉ d) :
    ehdrAddr 0 (some ((pre ++ m :: post).map Mapping.line)) main = none := by
  unfold ehdrAddr
  rw [if_neg (by simp)]
  dsimp only
  have e' : m.path = (d ++ [47]) ++ 32 :: q := by rw [e]; simp
  rw [List.map_append, lookAll_other, List.map_cons, lookAll,
    look_cut hm e' (by simp [hd]), if_pos (last_iff.mp ⟨by simp, .inr ⟨d, by simp⟩⟩)]
  intro l hl
  obtain ⟨x, hx, rfl⟩ := List.mem_map.mp hl
  exact (noblank_look (hv x hx) (hb x hx).1 hn).2 (hb x hx).2

/-! ### A process -/

def str (s : String) : Str := s.toUTF8.toList

/-- The mapping of a file at an address. -/
def demoMap (a : Nat) (path : String) : Mapping := ⟨a, a + 4096, str "r--p", str "00000000", str "fd:01", str "1234", 21, str path⟩

theorem demo_line : (demoMap 4194304 "/usr/bin/prog").line = str "00400000-00401000 r--p 00000000 fd:01 1234                      /usr/bin/prog\n" := by
  have h1 : SelfWrite.hex8 4194304 = str "00400000" := by decide +kernel
  have h2 : SelfWrite.hex8 4198400 = str "00401000" := by decide +kernel
  unfold Mapping.line demoMap
  simp only [h1, h2]
  decide +kernel

theorem demo_valid (a : Nat) (path : String) (ha : a < 2 ^ 64) (hp : 10 ∉ str path ∧ (str path).head? ≠ some 32) : (demoMap a path).Valid :=
  ⟨ha, show Column (str "r--p") by unfold Column; decide +kernel, show Column (str "00000000") by unfold Column; decide +kernel,
    show Column (str "fd:01") by unfold Column; decide +kernel, show Column (str "1234") by unfold Column; decide +kernel, hp⟩

def demoT (name : String) : Task := { pid := 7, comm := .text ((str name).take 15 ++ [10]), inode := some 0, maps := none, attaches := true, proc := Inspect.demoProc 1 false }

instance (path name : Str) : Decidable (Last path name) := decidable_of_iff (getBasename path = name) last_iff.symm

theorem not_of {m : Mapping} {name : Str} (h1 : getBasename m.path ≠ name) (h2 : ¬ " (deleted)".toUTF8.toList <:+ m.path) : ¬ m.Of name := by
  rintro (h | ⟨p, e, _⟩)
  · exact h1 (last_iff.mp h)
  · exact h2 ⟨p, e.symm⟩

/-- It is found, though its file has been deleted. -/
example : ehdrAddr 0 (some ([demoMap 4096 "/lib/libc.so.6", demoMap 8192 "", demoMap 4194304 "/usr/bin/prog (deleted)"].map Mapping.line)) (binName [] (demoT "prog").comm).1 = some 4194304 :=
  (C200_program_partial (demoT "prog") (str "prog") [] rfl (by unfold Short; decide +kernel) (by decide +kernel)
    [demoMap 4096 "/lib/libc.so.6", demoMap 8192 "", demoMap 4194304 "/usr/bin/prog (deleted)"]
    (by
      intro m hm
      simp only [List.mem_cons, List.not_mem_nil, or_false] at hm
      rcases hm with rfl | rfl | rfl <;> exact demo_valid _ _ (by omega) (by decide +kernel))
    (by
      intro m hm
      simp only [List.mem_cons, List.not_mem_nil, or_false] at hm
      rcases hm with rfl | rfl | rfl
      · exact .inl (by decide +kernel)
      · exact .inl (by decide +kernel)
      · exact .inr ⟨str "/usr/bin/prog", by decide +kernel, by decide +kernel, by decide +kernel⟩)).2.1
    [demoMap 4096 "/lib/libc.so.6", demoMap 8192 ""] _ [] rfl (.inr ⟨str "/usr/bin/prog", by decide +kernel, by decide +kernel⟩)
    (by
      intro m hm
      simp only [List.mem_cons, List.not_mem_nil, or_false] at hm
      rcases hm with rfl | rfl <;> exact not_of (by decide +kernel) (by decide +kernel))

/-- A name of 16 bytes. -/
example : ehdrAddr 0 (some ([demoMap 4194304 "/usr/bin/program-with-name"].map Mapping.line)) (binName [] (demoT "program-with-name").comm).1 = some 0 :=
  C200_long_name (demoT "program-with-name") (str "program-with-name") [] rfl (by decide +kernel) (by decide +kernel) (by decide +kernel) _
    (by intro m hm; rw [List.mem_singleton.mp hm]; exact demo_valid _ _ (by omega) (by decide +kernel))
    (by intro m hm; rw [List.mem_singleton.mp hm]; exact .inl (by decide +kernel))
    (by intro m hm; rw [List.mem_singleton.mp hm]; exact not_of (by decide +kernel) (by decide +kernel))

example : ehdrAddr 0 (some ([demoMap 4194304 "/opt/my dir/prog"].map Mapping.line)) (binName [] (demoT "prog").comm).1 = some 0 :=
  C200_blank (demoT "prog") (str "prog") [] rfl (by unfold Short; decide +kernel) (by decide +kernel) _
    (by intro m hm; rw [List.mem_singleton.mp hm]; exact demo_valid _ _ (by omega) (by decide +kernel))
    (by
      intro m hm
      rw [List.mem_singleton.mp hm]
      exact .inr ⟨str "/opt", str "my", str "dir", by decide +kernel, by decide +kernel, by decide +kernel, by decide +kernel, by decide +kernel, by decide +kernel⟩)

/-- `/data/prog 2/table` is mapped below the program. -/
example : ehdrAddr 0 (some (([] ++ demoMap 65536 "/data/prog 2/table" :: [demoMap 4194304 "/usr/bin/prog"]).map Mapping.line)) (binName [] (demoT "prog").comm).1 = some 65536 :=
  C200_other_file (demoT "prog") (str "prog") [] rfl (by unfold Short; decide +kernel) (by decide +kernel) (by decide +kernel) [] _ _
    (by simp) (by simp) (demo_valid _ _ (by omega) (by decide +kernel)) (str "/data") (str "2/table") (by decide +kernel) (by decide +kernel)

example : ehdrAddr 0 (some ([demoMap 65536 "/data/prog 2/table", demoMap 4194304 "/usr/bin/prog"].map Mapping.line)) (str "prog") ≠ none :=
  C201_defined_partial 0 _
    (by
      intro m hm
      simp only [List.mem_cons, List.not_mem_nil, or_false] at hm
      rcases hm with rfl | rfl <;> exact demo_valid _ _ (by omega) (by decide +kernel))
    (by
      intro m hm
      simp only [List.mem_cons, List.not_mem_nil, or_false] at hm
      rcases hm with rfl | rfl <;> decide +kernel) _

example : ehdrAddr 0 (some (([demoMap 4096 "/lib/libc.so.6"] ++ demoMap 65536 "/memfd:/ x (deleted)" :: [demoMap 4194304 "/usr/bin/prog"]).map Mapping.line)) (str "prog") = none :=
  C201_undefined (str "prog") (by decide +kernel) _ _ _
    (by intro m hm; rw [List.mem_singleton.mp hm]; exact demo_valid _ _ (by omega) (by decide +kernel))
    (by intro m hm; rw [List.mem_singleton.mp hm]; exact ⟨.inl (by decide +kernel), not_of (by decide +kernel) (by decide +kernel)⟩)
    (demo_valid _ _ (by omega) (by decide +kernel)) (str "/memfd:") (str "x (deleted)") (by decide +kernel) (by decide +kernel)

end Verif.Ehdr
