import Verif.Version.Lemmas
import Verif.Inspect.Props

namespace Verif.Version

open Verif.Inspect (Proc)

/-- C202: the version that the tool works with is the one that libpulp in the process has: three numbers below 65536, with dots between them.
Partial: the bytes up to the end of the last word of the text can be read. -/
theorem C202_version_partial {p : Proc} {at_ a b c : Nat} (ha : a < 2 ^ 16) (hb : b < 2 ^ 16) (hc : c < 2 ^ 16) (h : Has p at_ (text a b c))
    (hw : ∀ k, k ≤ (text a b c).length / 8 → WordReadable p at_ k) (junk : List UInt8) (hj : junk.length = size) :
    readVersion p at_ junk = some (c + b * 2 ^ 16 + a * 2 ^ 32) := by
  obtain ⟨e, hl⟩ := Text.C38_version_text ha hb hc
  have ht : text a b c = Text.versionAsString (Text.triplet a b c) := e.symm
  rw [readVersion_text h (by rw [ht]; omega) hw junk hj, ht, Text.C38_version_round_trip ha hb hc, Text.triplet_eq ha hb hc]

/-- Of two versions the tool finds the same one newer that is newer. -/
theorem C202_order {p q : Proc} {x y a b c a' b' c' : Nat} (ha : a < 2 ^ 16) (hb : b < 2 ^ 16) (hc : c < 2 ^ 16)
    (ha' : a' < 2 ^ 16) (hb' : b' < 2 ^ 16) (hc' : c' < 2 ^ 16) (h : Has p x (text a b c)) (h' : Has q y (text a' b' c'))
    (hw : ∀ k, k ≤ (text a b c).length / 8 → WordReadable p x k) (hw' : ∀ k, k ≤ (text a' b' c').length / 8 → WordReadable q y k)
    (junk junk' : List UInt8) (hj : junk.length = size) (hj' : junk'.length = size) :
    ∃ v v', readVersion p x junk = some v ∧ readVersion q y junk' = some v' ∧
      (v < v' ↔ a < a' ∨ (a = a' ∧ (b < b' ∨ (b = b' ∧ c < c')))) :=
  ⟨_, _, C202_version_partial ha hb hc h hw junk hj, C202_version_partial ha' hb' hc' h' hw' junk' hj', by omega⟩

/-- C202 is false of versions with a suffix: with a letter or a hyphen in the last part, or with a part missing, the version is taken to be 0,
older than all. -/
theorem C202_suffix {p : Proc} {at_ a b : Nat} (ha : a < 2 ^ 16) (hb : b < 2 ^ 16) {last : Str} (h46 : (46 : UInt8) ∉ last)
    (hd : last = [] ∨ ∃ c ∈ last, ¬ (48 ≤ c ∧ c ≤ 57)) (h : Has p at_ (Text.printDec a ++ [46] ++ Text.printDec b ++ [46] ++ last))
    (hl : (Text.printDec a ++ [46] ++ Text.printDec b ++ [46] ++ last).length < 32)
    (hw : ∀ k, k ≤ (Text.printDec a ++ [46] ++ Text.printDec b ++ [46] ++ last).length / 8 → WordReadable p at_ k)
    (junk : List UInt8) (hj : junk.length = size) : readVersion p at_ junk = some 0 := by
  rw [readVersion_text h hl hw junk hj]
  congr 1
  unfold Text.versionFromString
  have h1 : Text.printDec a ++ [46] ++ Text.printDec b ++ [46] ++ last = Text.printDec a ++ (46 :: (Text.printDec b ++ (46 :: last))) := by simp
  rw [h1, Text.component_printDec (by omega) _ (.inr ⟨_, rfl⟩)]
  simp only [List.drop_succ_cons, List.drop_zero]
  rw [Text.component_printDec (by omega) _ (.inr ⟨_, rfl⟩)]
  simp only [List.drop_succ_cons, List.drop_zero]
  have h2 : Text.component last = none := by
    unfold Text.component Text.strtok
    have e1 : last.dropWhile (fun c => c == 46) = last := by
      cases last with
      | nil => rfl
      | cons c l =>
        rw [List.dropWhile_cons_of_neg]
        simp only [beq_iff_eq]
        rintro rfl
        exact h46 List.mem_cons_self
    have e2 : last.takeWhile (fun c => c != 46) = last := by
      have := List.takeWhile_append_of_pos (l₁ := last) (l₂ := []) (p := fun c => c != 46) (fun x hx => by
        simp only [bne_iff_ne, ne_eq]; rintro rfl; exact h46 hx)
      simpa using this
    simp only [e1, e2]
    rcases hd with rfl | ⟨c, hc, hn⟩
    · simp [Text.isnumber]
    · have h0 : last ≠ [] := by rintro rfl; cases hc
      rw [if_neg h0]
      dsimp only
      rw [if_pos]
      cases last with
      | nil => cases hc
      | cons x l =>
        simp only [Text.isnumber, Bool.not_eq_true', List.all_eq_false]
        exact ⟨c, hc, by unfold Text.isDigit; simpa using hn⟩
  rw [h2]

/-- C203: reading the version is defined – whatever the array held before – exactly if the text ends within 32 bytes and the words up to its
end can be read.  (Missing for C203: that it is defined otherwise, too.) -/
theorem C203_defined_partial (p : Proc) (a : Nat) (junk : List UInt8) (hj : junk.length = size) : readVersion p a junk ≠ none ↔ Fits p a := by
  constructor
  · intro h
    unfold readVersion at h
    cases hr : Ptrace.readStringAllocated p.readable p.mem a junk with
    | ok buf =>
      rw [hr] at h
      dsimp only at h
      by_cases h0 : (0 : UInt8) ∈ buf
      · unfold Ptrace.readStringAllocated at hr
        rw [hj] at hr
        exact loop_fits 4 0 rfl junk hj (by omega) (by omega) buf hr h0
      · rw [if_neg h0] at h; exact absurd rfl h
    | fail => rw [hr] at h; exact absurd rfl h
    | overflow => rw [hr] at h; exact absurd rfl h
  · rintro ⟨n, h1, h2, h3⟩
    obtain ⟨m, h4, h5, h6⟩ := least (P := fun n => p.mem (a + n) = 0) n h2
    rw [readVersion_text (holds_of_least h5 h6) (by simp; omega) (fun k hk => h3 k (by rw [load_length] at hk; omega)) junk hj]
    simp

/-- C203 is false: a process with a longer text there makes the tool read behind the array. -/
theorem C203_long_text {p : Proc} {a : Nat} {s : Str} (h : Has p a s) (hl : 32 ≤ s.length) (junk : List UInt8) (hj : junk.length = size) :
    readVersion p a junk = none := by
  apply Classical.byContradiction
  intro hn
  obtain ⟨n, h1, h2, _⟩ := (C203_defined_partial p a junk hj).mp hn
  have hb := (Ptrace.holds_byte h).1 n (by omega)
  rw [h2] at hb
  exact h.2 (hb ▸ List.getElem_mem _)

/-! ### A process -/

def demoText : Str := "0.3.17".toUTF8.toList

/-- A process with a text at 4096, of which 4096 bytes can be read. -/
def demo (s : String) : Proc where
  readable a := decide (4096 ≤ a ∧ a < 8192)
  mem a := s.toUTF8.toList[a - 4096]?.getD 0
  auxv := []
  ehdr0 := 0

theorem demo_readable (s : String) (k : Nat) (h : k < 512) : WordReadable (demo s) 4096 k := by
  intro i hi
  simp only [demo, decide_eq_true_eq]
  omega

theorem text_eq : text 0 3 17 = demoText := by decide +kernel

example : readVersion (demo "0.3.17") 4096 (List.replicate 32 170) = some 196625 :=
  C202_version_partial (a := 0) (b := 3) (c := 17) (by omega) (by omega) (by omega) (by rw [text_eq]; exact ⟨by unfold At; decide +kernel, by decide +kernel⟩)
    (fun k hk => demo_readable _ k (by rw [text_eq] at hk; have : demoText.length = 6 := by decide +kernel
                                       omega)) _ (by decide)

example := C202_order (p := demo "0.3.17") (q := demo "0.3.17") (a := 0) (b := 3) (c := 17) (a' := 0) (b' := 3) (c' := 17) (x := 4096) (y := 4096)
  (by omega) (by omega) (by omega) (by omega) (by omega) (by omega)
  (by rw [text_eq]; exact ⟨by unfold At; decide +kernel, by decide +kernel⟩) (by rw [text_eq]; exact ⟨by unfold At; decide +kernel, by decide +kernel⟩)
  (fun k hk => demo_readable _ k (by rw [text_eq] at hk; have : demoText.length = 6 := by decide +kernel
                                     omega))
  (fun k hk => demo_readable _ k (by rw [text_eq] at hk; have : demoText.length = 6 := by decide +kernel
                                     omega)) (List.replicate 32 170) (List.replicate 32 0) (by decide) (by decide)

theorem demo_suffix : Text.printDec 0 ++ [46] ++ Text.printDec 3 ++ [46] ++ "17-rc1".toUTF8.toList = "0.3.17-rc1".toUTF8.toList := by decide +kernel

example : readVersion (demo "0.3.17-rc1") 4096 (List.replicate 32 170) = some 0 :=
  C202_suffix (a := 0) (b := 3) (last := "17-rc1".toUTF8.toList) (by omega) (by omega) (by decide +kernel) (.inr ⟨45, by decide +kernel, by decide⟩)
    (by rw [demo_suffix]; exact ⟨by unfold At; decide +kernel, by decide +kernel⟩) (by rw [demo_suffix]; decide +kernel)
    (fun k hk => demo_readable _ k (by rw [demo_suffix] at hk; have : ("0.3.17-rc1".toUTF8.toList).length = 10 := by decide +kernel
                                       omega)) _ (by decide)

example : readVersion (demo "0.3.17") 4096 (List.replicate 32 170) ≠ none :=
  (C203_defined_partial _ _ _ (by decide)).mpr ⟨6, by omega, by decide +kernel, fun k hk => demo_readable _ k (by omega)⟩

example : readVersion (demo "0.3.17.20261116.built.by.somebody") 4096 (List.replicate 32 170) = none :=
  C203_long_text (s := "0.3.17.20261116.built.by.somebody".toUTF8.toList) ⟨by unfold At; decide +kernel, by decide +kernel⟩ (by decide +kernel) _ (by decide)

end Verif.Version
