import Verif.Dump.Spec
import Verif.Text.Props

namespace Verif.Dump

open Verif.Metadata (Bytes PRef Parsed)
open Verif.Metadata.Spec (cstring)

theorem cstr_eq (b : Bytes) : cstr b = cstring b := by
  induction b with
  | nil => rfl
  | cons c cs ih =>
    by_cases h : c = 0
    · subst h; simp [cstr, cstring]
    · rw [cstr, if_neg h, ih]
      rw [cstring]
      intro h0; exact h h0

/-! ### Numbers -/

/-- Value of hexadecimal digits. -/
def unhex (s : Str) : Nat := s.foldl (fun a c => 16 * a + (Text.hexVal c).getD 0) 0

theorem unhex_hex (n : Nat) : unhex (hex n) = n := by
  induction n using Nat.strongRecOn with
  | ind n ih =>
    unfold hex
    split
    · rename_i h
      simp [unhex, Text.hexVal_hexDigit n h]
    · rename_i h
      have := ih (n / 16) (by omega)
      unfold unhex at this ⊢
      rw [List.foldl_append, this]
      simp [Text.hexVal_hexDigit (n % 16) (by omega)]
      omega

theorem hexDigit_ne (n : Nat) (h : n < 16) : Text.hexDigit n ≠ 10 := by
  have : ∀ m : Fin 16, Text.hexDigit m.val ≠ 10 := by decide
  exact this ⟨n, h⟩

theorem hex_line (n : Nat) : (10 : UInt8) ∉ hex n := by
  induction n using Nat.strongRecOn with
  | ind n ih =>
    unfold hex
    split
    · rename_i h
      simpa using (hexDigit_ne n h).symm
    · rename_i h
      simp only [List.mem_append, List.mem_singleton, not_or]
      exact ⟨ih (n / 16) (by omega), (hexDigit_ne (n % 16) (by omega)).symm⟩

theorem hex_inj {m n : Nat} (h : hex m = hex n) : m = n := by
  rw [← unhex_hex m, h, unhex_hex]

theorem ptr_inj {m n : Nat} (h : ptr m = ptr n) : m = n := by
  have h1 : ∀ s : Str, lit "(nil)" ≠ lit "0x" ++ s := by
    intro s he
    have := congrArg List.head? he
    rw [List.head?_append] at this
    revert this
    have e1 : (lit "(nil)").head? = some 40 := by decide +kernel
    have e2 : (lit "0x").head? = some 48 := by decide +kernel
    rw [e1, e2]; simp
  unfold ptr at h
  split at h <;> split at h
  · omega
  · exact absurd h (h1 _)
  · exact absurd h.symm (h1 _)
  · exact hex_inj (List.append_cancel_left h)

theorem ptr_line (n : Nat) : (10 : UInt8) ∉ ptr n := by
  unfold ptr
  split
  · decide +kernel
  · simp only [List.mem_append, not_or]
    exact ⟨by decide +kernel, hex_line n⟩

theorem printDec_line (n : Nat) : (10 : UInt8) ∉ Text.printDec n := by
  intro h
  have := (Text.printDec_digits n 10 h).1
  exact absurd this (by decide)

theorem dec32_line (n : Nat) : (10 : UInt8) ∉ dec32 n := by
  unfold dec32
  split
  · exact printDec_line _
  · simp only [List.mem_append, not_or]
    exact ⟨by decide +kernel, printDec_line _⟩

theorem printHex_line (b : UInt8) : (10 : UInt8) ∉ Text.printHex b := by
  unfold Text.printHex
  simp only [List.mem_cons, List.not_mem_nil, or_false, not_or]
  have := b.toNat_lt
  exact ⟨(hexDigit_ne _ (by omega)).symm, (hexDigit_ne _ (by omega)).symm⟩

theorem buildid_line (b : Bytes) : (10 : UInt8) ∉ Text.buildidToString b := by
  unfold Text.buildidToString
  simp only [List.mem_flatMap, not_exists, not_and]
  intro x _
  exact printHex_line x

theorem printHex_inj {a b : UInt8} (h : Text.printHex a = Text.printHex b) : a = b := by
  have h1 := Text.scanHex2_printHex a []
  rw [h, Text.scanHex2_printHex] at h1
  simp only [Option.some.injEq] at h1
  exact (UInt8.toNat_inj.mp h1).symm

theorem buildidToString_inj : ∀ {a b : Bytes}, Text.buildidToString a = Text.buildidToString b → a = b := by
  intro a
  induction a with
  | nil =>
    intro b h
    have := congrArg List.length h
    rw [Text.buildidToString_length, Text.buildidToString_length] at this
    exact (List.length_eq_zero_iff.mp (by simp only [List.length_nil] at this; omega)).symm
  | cons x a ih =>
    intro b h
    cases b with
    | nil =>
      have := congrArg List.length h
      rw [Text.buildidToString_length, Text.buildidToString_length] at this
      simp at this
    | cons y b =>
      have e1 : Text.buildidToString (x :: a) = Text.printHex x ++ Text.buildidToString a := rfl
      have e2 : Text.buildidToString (y :: b) = Text.printHex y ++ Text.buildidToString b := rfl
      rw [e1, e2] at h
      obtain ⟨h1, h2⟩ := List.append_inj h rfl
      rw [printHex_inj h1, ih h2]

/-! ### Lines -/

/-- Lines, each with its end. -/
def unlines (ls : List Str) : Str := ls.flatMap (· ++ nl)

theorem unlines_cons (l : Str) (ls : List Str) : unlines (l :: ls) = l ++ nl ++ unlines ls := rfl
theorem unlines_append (a b : List Str) : unlines (a ++ b) = unlines a ++ unlines b := List.flatMap_append ..

theorem line_inj : ∀ {a b s t : Str}, (10 : UInt8) ∉ a → (10 : UInt8) ∉ b → a ++ nl ++ s = b ++ nl ++ t → a = b ∧ s = t := by
  intro a
  induction a with
  | nil =>
    intro b s t _ hb h
    cases b with
    | nil => exact ⟨rfl, by simpa [nl] using h⟩
    | cons y b =>
      simp [nl] at h
      exact absurd h.1 (by intro he; exact hb (by simp [← he]))
  | cons x a ih =>
    intro b s t ha hb h
    cases b with
    | nil =>
      simp [nl] at h
      exact absurd h.1 (by intro he; exact ha (by simp [he]))
    | cons y b =>
      simp only [List.cons_append, List.cons.injEq] at h
      obtain ⟨h1, h2⟩ := ih (fun hm => ha (by simp [hm])) (fun hm => hb (by simp [hm])) h.2
      exact ⟨by rw [h.1, h1], h2⟩

theorem unlines_inj : ∀ {a b : List Str}, (∀ l ∈ a, (10 : UInt8) ∉ l) → (∀ l ∈ b, (10 : UInt8) ∉ l) →
    unlines a = unlines b → a = b := by
  intro a
  induction a with
  | nil =>
    intro b _ _ h
    cases b with
    | nil => rfl
    | cons y b => have := congrArg List.length h; simp [unlines, nl] at this
  | cons x a ih =>
    intro b ha hb h
    cases b with
    | nil => have := congrArg List.length h; simp [unlines, nl] at this
    | cons y b =>
      rw [unlines_cons, unlines_cons] at h
      obtain ⟨h1, h2⟩ := line_inj (ha x (by simp)) (hb y (by simp)) h
      rw [h1, ih (fun l hl => ha l (by simp [hl])) (fun l hl => hb l (by simp [hl])) h2]

/-! ### Units and references -/

abbrev U := Str × Str × Nat
abbrev R := Str × Nat × Bool

def unitLines (u : U) : List Str :=
  [[], lit "** old_fname: " ++ u.1, lit "** new_fname: " ++ u.2.1, lit "** old_faddr: " ++ ptr u.2.2]

def refLines (r : R) : List Str :=
  [lit "*** ref_name: " ++ r.1, lit "*** target_offset: " ++ hex r.2.1, lit "*** patch_offset: " ++ hex r.2.1,
    lit "*** tls variable: " ++ (if r.2.2 then lit "yes" else lit "no"), []]

/-- What is printed of the units. -/
theorem dumpUnits_eq (us : List Metadata.PUnit) (t : Str) (h : dumpUnits us = some t) :
    ∃ vs : List U, us.map (fun u => (cstring u.oldFname, cstring u.newFname, u.oldFaddr)) =
      vs.map (fun v => (some v.1, some v.2.1, v.2.2)) ∧ t = unlines (vs.flatMap unitLines) := by
  induction us generalizing t with
  | nil => simp [dumpUnits] at h; exact ⟨[], rfl, by rw [h]; rfl⟩
  | cons u us ih =>
    unfold dumpUnits at h
    simp only [Option.bind_eq_bind, Option.bind_eq_some_iff, Option.some.injEq] at h
    obtain ⟨o, h1, n, h2, r, h3, h4⟩ := h
    obtain ⟨vs, h5, h6⟩ := ih r h3
    refine ⟨(o, n, u.oldFaddr) :: vs, ?_, ?_⟩
    · rw [cstr_eq] at h1 h2
      simp [h1, h2, h5]
    · rw [← h4, h6, List.flatMap_cons, unlines_append]
      simp [unitLines, unlines, nl]

theorem dumpRefs_eq (rs : List PRef) (t : Str) (h : dumpRefs rs = some t) :
    ∃ vs : List R, rs.map (fun r => (cstring r.referenceName, r.targetOffset, decide (r.tls ≠ 0))) =
      vs.map (fun v => (some v.1, v.2.1, v.2.2)) ∧ t = unlines (vs.flatMap refLines) := by
  induction rs generalizing t with
  | nil => simp [dumpRefs] at h; exact ⟨[], rfl, by rw [h]; rfl⟩
  | cons u us ih =>
    unfold dumpRefs at h
    simp only [Option.bind_eq_bind, Option.bind_eq_some_iff, Option.some.injEq] at h
    obtain ⟨o, h1, r, h3, h4⟩ := h
    obtain ⟨vs, h5, h6⟩ := ih r h3
    refine ⟨(o, u.targetOffset, decide (u.tls ≠ 0)) :: vs, ?_, ?_⟩
    · rw [cstr_eq] at h1
      rw [List.map_cons, List.map_cons, h1, h5]
    · rw [← h4, h6, List.flatMap_cons, unlines_append]
      by_cases ht : u.tls = 0 <;> simp [refLines, unlines, nl, ht]

theorem static_ne (a b : Str) : lit "static references: " ++ a ≠ lit "** old_fname: " ++ b := by
  intro he
  have := congrArg List.head? he
  rw [List.head?_append, List.head?_append] at this
  revert this
  have e1 : (lit "static references: ").head? = some 115 := by decide +kernel
  have e2 : (lit "** old_fname: ").head? = some 42 := by decide +kernel
  rw [e1, e2]; simp

theorem units_inj : ∀ {vs vs' : List U} {n n' : Str} {x x' : List Str},
    vs.flatMap unitLines ++ ([] :: (lit "static references: " ++ n) :: x) =
      vs'.flatMap unitLines ++ ([] :: (lit "static references: " ++ n') :: x') → vs = vs' ∧ x = x' := by
  intro vs
  induction vs with
  | nil =>
    intro vs' n n' x x' h
    cases vs' with
    | nil => simp at h; exact ⟨rfl, h.2⟩
    | cons v vs' =>
      simp [unitLines] at h
      exact absurd h.1 (static_ne _ _)
  | cons v vs ih =>
    intro vs' n n' x x' h
    cases vs' with
    | nil =>
      simp [unitLines] at h
      exact absurd h.1.symm (static_ne _ _)
    | cons v' vs' =>
      simp only [List.flatMap_cons, unitLines, List.cons_append, List.nil_append, List.cons.injEq, true_and] at h
      obtain ⟨h1, h2, h3, h4⟩ := h
      obtain ⟨h5, h6⟩ := ih h4
      have e1 := List.append_cancel_left h1
      have e2 := List.append_cancel_left h2
      have e3 := ptr_inj (List.append_cancel_left h3)
      exact ⟨by rw [h5, Prod.ext e1 (Prod.ext e2 e3)], h6⟩

theorem refs_inj : ∀ {vs vs' : List R}, vs.flatMap refLines = vs'.flatMap refLines → vs = vs' := by
  intro vs
  induction vs with
  | nil => intro vs' h; cases vs' with
    | nil => rfl
    | cons v vs' => simp [refLines] at h
  | cons v vs ih =>
    intro vs' h
    cases vs' with
    | nil => simp [refLines] at h
    | cons v' vs' =>
      simp only [List.flatMap_cons, refLines, List.cons_append, List.nil_append, List.cons.injEq, true_and] at h
      obtain ⟨h1, h2, -, h4, h5⟩ := h
      have e1 := List.append_cancel_left h1
      have e2 := hex_inj (List.append_cancel_left h2)
      have e3 : v.2.2 = v'.2.2 := by
        have h4 := List.append_cancel_left h4
        have hne : lit "yes" ≠ lit "no" := by decide +kernel
        cases hv : v.2.2 <;> cases hv' : v'.2.2
        · rfl
        · rw [hv, hv'] at h4; exact absurd h4 hne.symm
        · rw [hv, hv'] at h4; exact absurd h4 hne
        · rfl
      rw [ih h5, Prod.ext e1 (Prod.ext e2 e3)]

end Verif.Dump
