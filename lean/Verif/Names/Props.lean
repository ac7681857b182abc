import Verif.Names.Lemmas

/-! C150 (selecting processes by name), C151 (which processes are live-patchable), C152 (selecting processes by owner). -/

namespace Verif.Names

open Verif.Listing (Entry Query loop gen seen selected nameOk userOk wanted loop_eq)
open Verif.Inspect (Obj LinkMap)
open Verif.Inspect.Spec

/-! ### C150 -/

theorem found_wild {w : World} {fuel : Nat} {wild user : Option Str} {ts : List Task} (h : Text.isnumber wild = false) :
    found w fuel wild user ts = loop (ask w wild user) (scan w.users fuel [] ts) none := by
  unfold found
  rw [if_neg (by simp [h])]

theorem runs_name {t : Task} {prog buf : Str} (h : t.Runs prog) (hs : Short prog) : binName buf t.comm = (prog, prog) := by
  rw [h, List.take_of_length_le hs.1]
  exact binName_text (dir := []) (.inl rfl) hs.2.1 (by simpa using hs.2.2) (by simp; have := hs.1; omega)

/-- **C150**, for programs with names of at most 15 bytes whose processes have kept these: a wildcard selects exactly the live-patchable processes of
the programs whose name matches.  Missing, and false (see below): longer names, processes that have changed their name, wildcards that are numbers. -/
theorem C150_by_name_partial (w : World) (fuel : Nat) (wild : Str) (ts : List Task) (prog : Task → Str) (hn : Text.isnumber (some wild) = false)
    (hp : ∀ t ∈ ts, t.Runs (prog t) ∧ Short (prog t)) (hc : ∀ t ∈ ts, hasLibpulp t = true → collects fuel t = true) :
    found w fuel (some wild) none ts = (ts.filter fun t => w.fnmatch wild (prog t) && hasLibpulp t && t.pid != w.self).map (·.pid) := by
  rw [found_wild hn]
  refine loop_scan _ (fun t ht b => ?_) (fun t ht h => hc t ht ?_) _
  · have e := runs_name (buf := b) (hp t ht).1 (hp t ht).2
    rw [Bool.eq_iff_iff, selected_iff]
    have e2 : nameOk (ask w (some wild) none) (entry w.users fuel b t) = w.fnmatch wild (prog t) := by
      simp [nameOk, ask, entry, e]
    rw [e2]
    simp [userOk, ask]
    constructor
    · rintro ⟨h1, h2, h3⟩; exact ⟨⟨h1, h3⟩, h2⟩
    · rintro ⟨⟨h1, h3⟩, h2⟩; exact ⟨h1, h2, h3⟩
  · simp only [Bool.and_eq_true] at h; exact h.1.2

/-- C150 is false of longer names: whatever the processes are, the name of a program of more than 15 bytes, given in full, selects none. -/
theorem C150_long_name_never (w : World) (fuel : Nat) (wild : Str) (user : Option Str) (ts : List Task) (hk : ∀ t ∈ ts, t.Kernel) (hl : Literal w wild)
    (hlong : 15 < wild.length) (hn : Text.isnumber (some wild) = false) : found w fuel (some wild) user ts = [] := by
  rw [found_wild hn]
  refine List.eq_nil_iff_forall_not_mem.mpr fun p hp => ?_
  obtain ⟨e, he, hs, -⟩ := mem_loop hp
  obtain ⟨t, ht, b, hb, rfl⟩ := scan_mem_short hk (by simp) he
  have h1 := (selected_iff.mp hs).1
  have h2 : w.fnmatch wild (binName b t.comm).1 = true := h1
  have h3 := (binName_length (hk t ht) hb).1
  rw [hl _ h2] at h3
  omega

/-- And no wildcard tells two programs from each other whose names have the same first 15 bytes. -/
theorem C150_same_start (w : World) (fuel : Nat) (wild : Str) (a x y b b' : Str) (t t' : Task) (ha : a.length = 15) (ht : t.Runs (a ++ x))
    (ht' : t'.Runs (a ++ y)) :
    nameOk (ask w (some wild) none) (entry w.users fuel b t) = nameOk (ask w (some wild) none) (entry w.users fuel b' t') := by
  have e : ∀ z : Str, (a ++ z).take 15 = a := fun z => by rw [← ha]; simp
  have : ∀ {b t x}, t.Runs (a ++ x) → nameOk (ask w (some wild) none) (entry w.users fuel b t)
      = w.fnmatch wild ((getBasename (fgets (a ++ [10]))).takeWhile (· != 10)) := by
    intro b t x h
    show w.fnmatch wild (binName b t.comm).1 = _
    rw [h, e, binName_cons (by simp)]
  rw [this ht, this ht']

/-- And a process that has given itself a name with a slash in it is selected by what follows the last one. -/
theorem C150_slash (w : World) (fuel : Nat) (wild x y b : Str) (t : Task) (ht : t.comm = .text (x ++ [47] ++ y ++ [10])) (hy : 47 ∉ y) (h10 : 10 ∉ x ++ [47] ++ y)
    (hl : (x ++ [47] ++ y).length ≤ 15) : nameOk (ask w (some wild) none) (entry w.users fuel b t) = w.fnmatch wild y := by
  show w.fnmatch wild (binName b t.comm).1 = _
  rw [ht, binName_text (.inr ⟨x, rfl⟩) hy h10 (by omega)]

/-- A process that has ended before its name could be read is not selected, although it counts under the name of the one before it. -/
theorem C150_ended (w : World) (fuel : Nat) (wild : Str) (user : Option Str) (ts : List Task) (hnd : (ts.map (·.pid)).Nodup) (hn : Text.isnumber (some wild) = false)
    {t : Task} (ht : t ∈ ts) (hm : t.maps = none) : t.pid ∉ found w fuel (some wild) user ts ∧
      ∀ b, t.comm = .unread → nameOk (ask w (some wild) none) (entry w.users fuel b t) = w.fnmatch wild b := by
  refine ⟨fun hp => ?_, fun b hc => ?_⟩
  · rw [found_wild hn] at hp
    obtain ⟨e, he, hs, hpid⟩ := mem_loop hp
    obtain ⟨t', ht', b, rfl⟩ := scan_mem he
    have hpid : t'.pid = t.pid := Option.some.inj hpid
    have : t' = t := by
      clear hp he hs
      induction ts with
      | nil => cases ht
      | cons u ts ih =>
        simp only [List.map_cons, List.nodup_cons, List.mem_map, not_exists, not_and] at hnd
        rcases List.mem_cons.mp ht with e1 | h1 <;> rcases List.mem_cons.mp ht' with e2 | h2
        · rw [e1, e2]
        · exact absurd (by rw [hpid, e1]) (hnd.1 t' h2)
        · exact absurd (by rw [← hpid, e2]) (hnd.1 t h1)
        · exact ih hnd.2 h1 h2
    have h1 := (selected_iff.mp hs).2.2.2
    rw [this] at h1
    simp [hasLibpulp, hm] at h1
  · show w.fnmatch wild (binName b t.comm).1 = _
    rw [hc]; rfl

/-- A number stands for the process of that number, whatever its name or owner; in particular a program whose name is a number is not found by its name. -/
theorem C150_number (w : World) (fuel : Nat) (n : Nat) (hn : n < 2 ^ 31) (user : Option Str) (ts : List Task) :
    (∀ p, p ∈ found w fuel (some (Text.printDec n)) user ts → p = n) ∧
      ∀ t ∈ ts, (∀ u ∈ ts, u.pid = n → u = t) → t.pid = n → collects fuel t = true → found w fuel (some (Text.printDec n)) user ts = [n] := by
  have e0 : found w fuel (some (Text.printDec n)) user ts = match ts.find? (fun t => (t.pid : Int) = n) with
    | some t => if collects fuel t then [t.pid] else []
    | none => [] := by
    unfold found
    rw [if_pos (Text.isnumber_printDec n), Option.getD_some, Text.atoi_printDec hn]
    all_goals rfl
  have key : ∀ {t}, ts.find? (fun t => (t.pid : Int) = n) = some t → t.pid = n := fun hf => by
    have := List.find?_some hf
    simp only [decide_eq_true_eq] at this; omega
  rw [e0]
  cases hf : ts.find? (fun t => (t.pid : Int) = n) with
  | none =>
    refine ⟨fun p hp => by simp at hp, fun t ht _ e _ => ?_⟩
    have := List.find?_eq_none.mp hf t ht
    simp [e] at this
  | some t =>
    refine ⟨fun p hp => ?_, fun u hu h1 h2 hc => ?_⟩
    · by_cases hc : collects fuel t = true
      · simp only [hc, if_true, List.mem_singleton] at hp; rw [hp, key hf]
      · simp only [hc] at hp; cases hp
    · have := h1 t (List.mem_of_find?_eq_some hf) (key hf)
      rw [this]
      simp only [hc, if_true, h2]

/-! ### C151 -/

/-- What counts is the path of the files that are mapped. -/
theorem C151_mapped (t : Task) (ms : List Mapping) (h : t.Maps ms) : hasLibpulp t = true ↔ ∃ m ∈ ms, pulp <:+: m.path := hasLibpulp_maps h

open Classical in
/-- **C151**, if all processes that map such a file do have libpulp loaded, with its constructor run: exactly these are listed, once each.  Missing, and
false (see below): processes that have mapped a file of such a name without having libpulp. -/
theorem C151_listed_partial (w : World) (ts : List Task) (h : ∀ t ∈ ts, t.Plain ∨ t.Live) : ∃ N, ∀ fuel, N ≤ fuel →
    found w fuel none none ts = (ts.filter fun t => decide (t.Live ∧ t.pid ≠ w.self)).map (·.pid) := by
  obtain ⟨N, hN⟩ := bound (P := fun t fuel => t.Live → collects fuel t = true) ts fun t ht => by
    rcases h t ht with hp | hl
    · exact ⟨0, fun n _ hl => absurd (MapsPulp.has hl.maps) (by rw [Plain.has hp]; simp)⟩
    · obtain ⟨N, hN⟩ := Live.collects hl
      exact ⟨N, fun n hn _ => hN n hn⟩
  refine ⟨N, fun fuel hf => ?_⟩
  rw [found_wild rfl]
  refine loop_scan _ (fun t ht b => ?_) (fun t ht hl => hN fuel hf t ht (of_decide_eq_true hl).1) _
  rw [Bool.eq_iff_iff, selected_iff]
  simp only [nameOk, userOk, ask, true_and, decide_eq_true_eq]
  rcases h t ht with hp | hl
  · have e := Plain.has hp
    constructor
    · rintro ⟨-, h2⟩; rw [e] at h2; cases h2
    · rintro ⟨h1, -⟩; rw [MapsPulp.has h1.maps] at e; cases e
  · exact ⟨fun ⟨h1, _⟩ => ⟨hl, h1⟩, fun ⟨_, h1⟩ => ⟨h1, MapsPulp.has hl.maps⟩⟩

/-- The rest of a scan. -/
theorem scan_append {users fuel} (a : List Task) : ∀ (b : List Task) (buf : Str), ∃ buf', scan users fuel buf (a ++ b) = scan users fuel buf a ++ scan users fuel buf' b := by
  induction a with
  | nil => exact fun b buf => ⟨buf, rfl⟩
  | cons t a ih =>
    intro b buf
    obtain ⟨buf', h⟩ := ih b (binName buf t.comm).2
    exact ⟨buf', by simp only [List.cons_append, scan, h]⟩

theorem plain_not_selected {w : World} {fuel : Nat} {a : List Task} {buf : Str} (h : ∀ t ∈ a, t.Plain) :
    ∀ e ∈ scan w.users fuel buf a, ¬ selected (ask w none none) e = true := by
  intro e he hs
  obtain ⟨t, ht, b, rfl⟩ := scan_mem he
  have := (selected_iff.mp hs).2.2.2
  rw [Plain.has (h t ht)] at this
  cases this

/-- C151 is false of a process that has mapped a file of such a name and does not have libpulp: if it comes first, no process is listed at all, whatever
comes after it. -/
theorem C151_impostor_hides (w : World) (a b : List Task) (t : Task) (ha : ∀ t ∈ a, t.Plain) (ht : t.Impostor) (hs : t.pid ≠ w.self) :
    ∃ N, ∀ fuel, N ≤ fuel → found w fuel none none (a ++ t :: b) = [] := by
  obtain ⟨N, hN⟩ := Impostor.collects ht
  refine ⟨N, fun fuel hf => ?_⟩
  rw [found_wild rfl]
  obtain ⟨buf', e⟩ := scan_append (users := w.users) (fuel := fuel) a (t :: b) []
  rw [e]
  exact Listing.C49_first_failure_ends _ _ _ _ (plain_not_selected ha)
    (selected_iff.mpr ⟨rfl, rfl, hs, MapsPulp.has ht.maps⟩) (hN fuel hf)

/-- And if it comes after one that has libpulp, that one is listed (and handled) twice. -/
theorem C151_impostor_repeats (w : World) (f : Task) (a b : List Task) (t : Task) (hf : f.Live) (hfs : f.pid ≠ w.self) (ha : ∀ t ∈ a, t.Plain) (ht : t.Impostor)
    (hs : t.pid ≠ w.self) : ∃ N, ∀ fuel, N ≤ fuel → ∃ rest, found w fuel none none (f :: a ++ t :: b) = f.pid :: f.pid :: rest := by
  obtain ⟨N, hN⟩ := Impostor.collects ht
  obtain ⟨M, hM⟩ := Live.collects hf
  refine ⟨N + M, fun fuel hfu => ?_⟩
  rw [found_wild rfl, loop_eq]
  have hnl : ∀ (es : List Entry) (l : Option Nat) (r : List Entry), (∀ e ∈ es, ¬ selected (ask w none none) e = true) →
      gen (ask w none none) (es ++ r) l = gen (ask w none none) r l := by
    intro es
    induction es with
    | nil => intro l r _; rfl
    | cons e es ih =>
      intro l r h
      rw [List.cons_append]
      conv => lhs; unfold gen
      rw [if_neg (h e (by simp)), ih _ _ fun e he => h e (by simp [he])]
  rw [List.cons_append]
  simp only [scan]
  obtain ⟨buf', e⟩ := scan_append (users := w.users) (fuel := fuel) a (t :: b) (binName [] f.comm).2
  rw [e]
  have s1 : selected (ask w none none) (entry w.users fuel [] f) = true := selected_iff.mpr ⟨rfl, rfl, hfs, MapsPulp.has hf.maps⟩
  have s2 : selected (ask w none none) (entry w.users fuel buf' t) = true := selected_iff.mpr ⟨rfl, rfl, hs, MapsPulp.has ht.maps⟩
  have c1 : (entry w.users fuel [] f).collects = true := hM fuel (by omega)
  have c2 : (entry w.users fuel buf' t).collects = false := hN fuel (by omega)
  conv => enter [1, rest, 1]; unfold gen
  rw [if_pos s1]
  simp only [c1, if_true]
  rw [hnl _ _ _ (plain_not_selected ha)]
  simp only [scan]
  conv => enter [1, rest, 1]; unfold gen
  rw [if_pos s2]
  simp only [c2]
  exact ⟨_, rfl⟩

/-! ### C152 -/

theorem ask_number (w : World) (wild : Option Str) {n : Nat} (h : n < 2 ^ 32) : (ask w wild (some (Text.printDec n))).targetUid = n := by
  simp only [ask, Text.isnumber_printDec, if_true, Option.getD_some, uidOf, Text.printDec_value]
  have : min n (2 ^ 63 - 1) = n := by omega
  rw [this]; omega

/-- **C152** for numbers: if the files of `/proc` tell the owners, the number of a user other than root selects exactly the live-patchable processes of that
user. -/
theorem C152_by_number_partial (w : World) (fuel : Nat) (n : Nat) (h0 : 0 < n) (hn : n < 2 ^ 32) (ts : List Task) (uid : Task → Nat) (ho : ∀ t ∈ ts, t.Owned (uid t) true)
    (hc : ∀ t ∈ ts, hasLibpulp t = true → collects fuel t = true) :
    found w fuel none (some (Text.printDec n)) ts = (ts.filter fun t => uid t = n && hasLibpulp t && t.pid != w.self).map (·.pid) := by
  rw [found_wild rfl]
  refine loop_scan _ (fun t ht b => ?_) (fun t ht h => hc t ht ?_) _
  · have e : owner t = uid t := by simp [owner, show t.inode = some (uid t) from ho t ht]
    have e2 : userOk (ask w none (some (Text.printDec n))) (entry w.users fuel b t) = decide (uid t = n) := by
      unfold userOk
      rw [show (ask w none (some (Text.printDec n))).userWildcard = some (Text.printDec n) from rfl]
      simp only [ask_number w none hn, if_pos h0, entry, e]
    rw [Bool.eq_iff_iff, selected_iff, e2]
    simp [nameOk, ask]
    constructor
    · rintro ⟨h1, h2, h3⟩; exact ⟨⟨h1, h3⟩, h2⟩
    · rintro ⟨⟨h1, h3⟩, h2⟩; exact ⟨h1, h2, h3⟩
  · simp only [Bool.and_eq_true] at h; exact h.1.2

/-- **C152** for names: if the files of `/proc` tell the owners, none of which is root, and all have names, a wildcard selects exactly the live-patchable
processes of the users whose name matches.  Missing, and false (see below and C64): root, users without a name, processes that are not dumpable. -/
theorem C152_by_name_partial (w : World) (fuel : Nat) (wild : Str) (hw : Text.isnumber (some wild) = false) (ts : List Task) (uid : Task → Nat) (name : Task → Str)
    (ho : ∀ t ∈ ts, t.Owned (uid t) true ∧ 0 < uid t ∧ w.users (uid t) = some (name t))
    (hc : ∀ t ∈ ts, hasLibpulp t = true → collects fuel t = true) :
    found w fuel none (some wild) ts = (ts.filter fun t => w.fnmatch wild (name t) && hasLibpulp t && t.pid != w.self).map (·.pid) := by
  rw [found_wild rfl]
  refine loop_scan _ (fun t ht b => ?_) (fun t ht h => hc t ht ?_) _
  · obtain ⟨h1, h2, h3⟩ := ho t ht
    have e : owner t = uid t := by simp [owner, show t.inode = some (uid t) from h1]
    have e2 : userOk (ask w none (some wild)) (entry w.users fuel b t) = w.fnmatch wild (name t) := by
      simp [userOk, ask, hw, entry, e, h3, h2]
    rw [Bool.eq_iff_iff, selected_iff, e2]
    simp [nameOk, ask]
    constructor
    · rintro ⟨h1, h2, h3⟩; exact ⟨⟨h1, h3⟩, h2⟩
    · rintro ⟨⟨h1, h3⟩, h2⟩; exact ⟨h1, h2, h3⟩
  · simp only [Bool.and_eq_true] at h; exact h.1.2

/-- The owner cannot be seen: the process is not dumpable, or the kernel has no such file (it is there only with auditing). -/
def Task.Unseen (t : Task) : Prop := t.inode = none ∨ ∃ uid, t.Owned uid false

theorem unseen_owner {t : Task} (h : t.Unseen) : owner t = 0 := by
  rcases h with h | ⟨uid, h⟩
  · simp [owner, h]
  · simp [owner, show t.inode = some 0 from h]

theorem gen_congr {q q' : Query} {es : List Entry} (h : ∀ e ∈ es, selected q e = selected q' e) : ∀ l, gen q es l = gen q' es l := by
  induction es with
  | nil => intro l; rfl
  | cons e es ih =>
    intro l
    have ih := ih fun e he => h e (by simp [he])
    unfold gen
    rw [h e (by simp)]
    by_cases hs : selected q' e = true
    · rw [if_pos hs, if_pos hs]; simp only [ih]
    · rw [if_neg hs, if_neg hs, ih]

/-- C152 is false of processes whose owner cannot be seen: with the name of a user, or a wildcard for names, all of them are selected, as if no user had been
given. -/
theorem C152_unseen_any_name (w : World) (fuel : Nat) (wild : Option Str) (user : Str) (hu : Text.isnumber (some user) = false) (ts : List Task) (h : ∀ t ∈ ts, t.Unseen) :
    found w fuel wild (some user) ts = found w fuel wild none ts := by
  by_cases hn : Text.isnumber wild = true
  · unfold found; rw [if_pos hn, if_pos hn]
  · have hn : Text.isnumber wild = false := by simpa using hn
    rw [found_wild hn, found_wild hn, loop_eq, loop_eq]
    refine congrArg seen (gen_congr (fun e he => ?_) none)
    obtain ⟨t, ht, b, rfl⟩ := scan_mem he
    rw [Bool.eq_iff_iff, selected_iff, selected_iff]
    have e1 : userOk (ask w wild (some user)) (entry w.users fuel b t) = true :=
      Listing.C64_root_always _ _ (by simp [ask, hu]) (unseen_owner (h t ht))
    exact ⟨fun ⟨a, _, b⟩ => ⟨a, rfl, b⟩, fun ⟨a, _, b⟩ => ⟨a, e1, b⟩⟩

/-- And with the number of a user none of them is selected, although they may be that user's. -/
theorem C152_unseen_no_number (w : World) (fuel : Nat) (wild : Option Str) (hw : Text.isnumber wild = false) (n : Nat) (h0 : 0 < n) (hn : n < 2 ^ 32) (ts : List Task)
    (h : ∀ t ∈ ts, t.Unseen) : found w fuel wild (some (Text.printDec n)) ts = [] := by
  rw [found_wild hw]
  refine List.eq_nil_iff_forall_not_mem.mpr fun p hp => ?_
  obtain ⟨e, he, hs, -⟩ := mem_loop hp
  obtain ⟨t, ht, b, rfl⟩ := scan_mem he
  have h1 := (selected_iff.mp hs).2.1
  unfold userOk at h1
  rw [show (ask w wild (some (Text.printDec n))).userWildcard = some (Text.printDec n) from rfl] at h1
  simp only [ask_number w wild hn, if_pos h0, entry, unseen_owner (h t ht), decide_eq_true_eq] at h1
  omega

/-! ### Concrete cases -/

def str (s : String) : Str := s.toUTF8.toList

/-- A system with one user besides root, and wildcards that are compared literally, but for `*`. -/
def demoW : World := { users := fun u => if u = 1000 then some (str "tux") else if u = 1001 then some (str "gnu") else none, self := 99, fnmatch := fun w x => w == str "*" || w == x }

def demoMap : Mapping := ⟨str "7f00-7f10 r-xp 00000000 08:01 77 ", str "/l/libpulp.so.0"⟩
def demoData : Mapping := ⟨str "7f00-7f10 r--p 00000000 08:01 78 ", str "/home/gnu/libpulp.so.txt"⟩
def demoBin : Mapping := ⟨str "1000-2000 r-xp 00000000 08:01 79 ", str "/usr/bin/srv"⟩

/-- A process with libpulp. -/
def demoT (pid : Nat) (name : String) (uid : Option Nat) : Task :=
  { pid := pid, comm := .text ((str name).take 15 ++ [10]), inode := uid, maps := some [demoBin.line, demoMap.line], attaches := true, proc := Inspect.demoProc 1 false }

/-- A process that has mapped a text file of a similar name. -/
def demoI (pid : Nat) : Task :=
  { pid := pid, comm := .text (str "editor" ++ [10]), inode := some 1001, maps := some [demoBin.line, demoData.line], attaches := true, proc := Inspect.demoWithout }

/-- A process that has nothing to do with libpulp. -/
def demoP (pid : Nat) : Task :=
  { pid := pid, comm := .text (str "sh" ++ [10]), inode := some 1001, maps := some [demoBin.line], attaches := true, proc := Inspect.demoWithout }

theorem demo_map_valid : demoMap.Valid ∧ demoData.Valid ∧ demoBin.Valid := by
  unfold Mapping.Valid
  decide +kernel

theorem demo_pulp : pulp <:+: demoMap.path ∧ pulp <:+: demoData.path ∧ ¬ pulp <:+: demoBin.path := by
  simp only [← SymLoad.strstr_iff]
  decide +kernel

theorem demo_maps (pid name uid) : (demoT pid name uid).Maps [demoBin, demoMap] :=
  ⟨rfl, by simp [demo_map_valid.1, demo_map_valid.2.2]⟩

theorem demo_live (pid name uid) : (demoT pid name uid).Live where
  maps := ⟨_, demo_maps pid name uid, demoMap, by simp, demo_pulp.1⟩
  attaches := rfl
  image := ⟨4096, ⟨4096, 4700, 4600⟩, [Inspect.demoPulp], fun _ => Inspect.demoSyms, Inspect.demoPulp, 9700, Inspect.demo_program 1 false (.inr rfl),
    Inspect.demo_chain 1 false (.inr rfl), fun x hx _ => by rw [List.mem_singleton.mp hx]; exact ⟨Inspect.demo_symbols 1 (.inr rfl), Inspect.demo_unambiguous⟩,
    List.mem_singleton_self _, Inspect.demo_mentions, fun x hx _ => by rw [List.mem_singleton.mp hx]; exact ⟨fun _ => rfl, fun _ => Inspect.demo_exports⟩,
    by decide +kernel, show Readable (Inspect.demoProc 1 false) 9700 16 by decide +kernel, show (Inspect.demoProc 1 false).mem 9700 ≠ 0 by decide +kernel⟩

theorem demo_impostor (pid) : (demoI pid).Impostor where
  maps := ⟨[demoBin, demoData], ⟨rfl, by simp [demo_map_valid.2.1, demo_map_valid.2.2]⟩, demoData, by simp, demo_pulp.2.1⟩
  image := ⟨4096, ⟨4096, 4700, 4600⟩, [⟨⟨8192, 4710, 0⟩, "/l/libqulp.so.0".toUTF8.toList⟩], Inspect.demo_without_program,
    show Chain Inspect.demoWithout _ _ from .cons (by decide) (by decide +kernel) (by decide +kernel) (by decide +kernel) (by decide +kernel)
      ⟨⟨by decide +kernel, by decide +kernel⟩, by decide +kernel⟩ .nil,
    fun x hx => by rw [List.mem_singleton.mp hx, ← Inspect.strstr_mentions]; decide +kernel⟩

theorem demo_plain (pid) : (demoP pid).Plain :=
  ⟨[demoBin], ⟨rfl, by simp [demo_map_valid.2.2]⟩, by simp [demo_pulp.2.2]⟩

/-- What is listed: the processes with libpulp, without the tool itself; a process that does not have it hides these, or makes one be listed twice. -/
example : ∃ N, ∀ fuel, N ≤ fuel → found demoW fuel none none [demoP 5, demoT 10 "srv" none, demoT 99 "ulp" none, demoT 11 "srv" none] = [10, 11] := by
  obtain ⟨N, hN⟩ := C151_listed_partial demoW [demoP 5, demoT 10 "srv" none, demoT 99 "ulp" none, demoT 11 "srv" none] (by
    simp only [List.mem_cons, List.not_mem_nil, or_false]
    rintro t (rfl | rfl | rfl | rfl)
    · exact .inl (demo_plain 5)
    all_goals exact .inr (demo_live _ _ _))
  refine ⟨N, fun fuel hf => (hN fuel hf).trans ?_⟩
  have h5 : ¬ (demoP 5).Live := fun h => absurd (MapsPulp.has h.maps) (by rw [Plain.has (demo_plain 5)]; simp)
  have h10 : (demoT 10 "srv" none).Live ∧ (demoT 10 "srv" none).pid ≠ demoW.self := ⟨demo_live _ _ _, by decide⟩
  have h11 : (demoT 11 "srv" none).Live ∧ (demoT 11 "srv" none).pid ≠ demoW.self := ⟨demo_live _ _ _, by decide⟩
  have h99 : ¬ ((demoT 99 "ulp" none).Live ∧ (demoT 99 "ulp" none).pid ≠ demoW.self) := fun h => h.2 rfl
  rw [List.filter_cons_of_neg (by simp [h5]), List.filter_cons_of_pos (by simpa using h10), List.filter_cons_of_neg (by simpa using h99),
    List.filter_cons_of_pos (by simpa using h11)]
  rfl
example := C151_impostor_hides demoW [demoP 5] [demoT 10 "srv" none, demoT 11 "srv" none] (demoI 6) (fun t ht => by rw [List.mem_singleton.mp ht]; exact demo_plain 5) (demo_impostor 6) (by decide)
example := C151_impostor_repeats demoW (demoT 10 "srv" none) [demoP 15] [demoT 21 "srv" none] (demoI 20) (demo_live _ _ _) (by decide)
  (fun t ht => by rw [List.mem_singleton.mp ht]; exact demo_plain 15) (demo_impostor 20) (by decide)
example := C151_mapped _ _ (demo_maps 10 "srv" none)

/-- Enough steps for these processes. -/
theorem demo_collects : ∃ N, ∀ fuel, N ≤ fuel → ∀ pid name uid, collects fuel (demoT pid name uid) = true := by
  obtain ⟨N, hN⟩ := Live.collects (demo_live 0 "" none)
  exact ⟨N, fun fuel hf _ _ _ => hN fuel hf⟩

theorem demo_has (pid name uid) : hasLibpulp (demoT pid name uid) = true := MapsPulp.has (demo_live pid name uid).maps

/-- The name of a program selects its processes. -/
example : ∃ N, ∀ fuel, N ≤ fuel → found demoW fuel (some (str "srv")) none [demoT 10 "srv" none, demoT 11 "srv2" none, demoT 12 "srv" none] = [10, 12] := by
  obtain ⟨N, hN⟩ := demo_collects
  refine ⟨N, fun fuel hf => (C150_by_name_partial demoW fuel (str "srv") _ (fun t => if t.pid = 11 then str "srv2" else str "srv") (by decide +kernel) ?_ ?_).trans ?_⟩
  · simp only [List.mem_cons, List.not_mem_nil, or_false]
    rintro t (rfl | rfl | rfl) <;> exact ⟨rfl, by unfold Short; decide +kernel⟩
  · simp only [List.mem_cons, List.not_mem_nil, or_false]
    rintro t (rfl | rfl | rfl) _ <;> exact hN fuel hf _ _ _
  · simp only [List.filter_cons, demo_has]
    decide +kernel

theorem demo_literal {s : String} (h : str s ≠ str "*") : Literal demoW (str s) := by
  intro x hx
  simp only [demoW, Bool.or_eq_true, beq_iff_eq] at hx
  rcases hx with hx | hx
  · exact absurd hx h
  · exact hx.symm

/-- A program with a long name. -/
example := C150_long_name_never demoW 100 (str "very-long-server-name") none [demoT 10 "very-long-server-name" none]
  (fun t ht c hc => by
    rw [List.mem_singleton.mp ht] at hc
    exact ⟨(str "very-long-server-name").take 15, by decide +kernel, (Comm.text.inj hc).symm⟩)
  (demo_literal (by decide +kernel)) (by decide +kernel) (by decide +kernel)
example := C150_same_start demoW 100 (str "very-long-serve*") (str "very-long-serve") (str "r-name") (str "-other") [] [] (demoT 10 "very-long-server-name" none) (demoT 11 "very-long-serve-other" none)
  (by decide +kernel) (show _ = _ from congrArg (fun s => Comm.text (List.take 15 s ++ [10])) (by decide +kernel))
  (show _ = _ from congrArg (fun s => Comm.text (List.take 15 s ++ [10])) (by decide +kernel))
example := C150_slash demoW 100 (str "0:1") (str "worker") (str "0:1") [] (demoT 10 "worker/0:1" none) (congrArg Comm.text (by decide +kernel)) (by decide +kernel) (by decide +kernel) (by decide +kernel)
example := C150_ended demoW 100 (str "srv") none [demoT 10 "srv" none, { demoT 11 "" none with comm := .unread, maps := none }] (by decide) (by decide +kernel)
  (t := { demoT 11 "" none with comm := .unread, maps := none }) (by simp) rfl

/-- The program called `2048`. -/
example : 10 ∉ found demoW 100 (some (Text.printDec 2048)) none [demoT 10 "2048" none] := fun h => absurd ((C150_number demoW 100 2048 (by decide) none _).1 10 h) (by decide)

/-- Users. -/
example : ∃ N, ∀ fuel, N ≤ fuel → found demoW fuel none (some (Text.printDec 1000)) [demoT 10 "srv" (some 1000), demoT 11 "srv" (some 1001)] = [10] ∧
    found demoW fuel none (some (str "gnu")) [demoT 10 "srv" (some 1000), demoT 11 "srv" (some 1001)] = [11] := by
  obtain ⟨N, hN⟩ := demo_collects
  have hc : ∀ fuel, N ≤ fuel → ∀ t ∈ [demoT 10 "srv" (some 1000), demoT 11 "srv" (some 1001)], hasLibpulp t = true → collects fuel t = true := by
    intro fuel hf
    simp only [List.mem_cons, List.not_mem_nil, or_false]
    rintro t (rfl | rfl) _ <;> exact hN fuel hf _ _ _
  refine ⟨N, fun fuel hf => ⟨(C152_by_number_partial demoW fuel 1000 (by decide) (by decide) _ (fun t => if t.pid = 10 then 1000 else 1001) ?_ (hc fuel hf)).trans ?_,
    (C152_by_name_partial demoW fuel (str "gnu") (by decide +kernel) _ (fun t => if t.pid = 10 then 1000 else 1001) (fun t => if t.pid = 10 then str "tux" else str "gnu") ?_ (hc fuel hf)).trans ?_⟩⟩
  · simp only [List.mem_cons, List.not_mem_nil, or_false]
    rintro t (rfl | rfl) <;> exact rfl
  · simp only [List.filter_cons, demo_has]
    decide +kernel
  · simp only [List.mem_cons, List.not_mem_nil, or_false]
    rintro t (rfl | rfl) <;> exact ⟨rfl, by decide, rfl⟩
  · simp only [List.filter_cons, demo_has]
    decide +kernel

/-- A setuid program of `tux` is selected for `gnu`, and not by the number of its owner. -/
example := C152_unseen_any_name demoW 100 none (str "gnu") (by decide +kernel) [demoT 10 "srv" (some 0)] (fun t ht => by rw [List.mem_singleton.mp ht]; exact .inr ⟨1000, rfl⟩)
example := C152_unseen_no_number demoW 100 none rfl 1000 (by decide) (by decide) [demoT 10 "srv" (some 0)] (fun t ht => by rw [List.mem_singleton.mp ht]; exact .inr ⟨1000, rfl⟩)

end Verif.Names
