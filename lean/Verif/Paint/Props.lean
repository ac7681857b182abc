import Verif.Paint.Lemmas
import Verif.Text.Props

/-! Colours and quietness of the tool (C172-C175). -/

namespace Verif.Paint

open Verif.Report (Result minor scan condense firstErr)
open Verif.Trigger (skippableError)

/-! ### `ulp trigger` -/

/-- The texts of a report without escape characters. -/
def Words.Clean (w : Words) : Prop := (27 : UInt8) ∉ w.name ∧ (27 : UInt8) ∉ w.pid ∧ ∀ e, (27 : UInt8) ∉ w.error e

theorem clean_longLine {w : Words} (hw : w.Clean) (hide : Bool) {r : Result} (hr : (27 : UInt8) ∉ r.name) :
    Clean (longLine w hide r) := by
  have he := hw.2.2 r.err
  unfold longLine
  by_cases h1 : minor r.err = true
  · rw [if_pos h1]
    cases hide
    · simp only [Bool.false_eq_true, if_false]; clean
    · exact clean_nil
  · rw [if_neg h1]
    by_cases h2 : r.err ≠ 0#32
    · rw [if_pos h2]; clean
    · rw [if_neg h2]; clean

theorem clean_shortLine {w : Words} (hw : w.Clean) (err : BitVec 32) {chosen : Option Result}
    (hr : ∀ r, chosen = some r → (27 : UInt8) ∉ r.name) : Clean (shortLine w err chosen) := by
  have he := hw.2.2 err
  unfold shortLine
  by_cases h1 : skippableError err = true
  · rw [if_pos h1]; clean
  · rw [if_neg h1]
    by_cases h2 : err ≠ 0#32
    · rw [if_pos h2]
      cases chosen with
      | none => clean
      | some c => have := hr c rfl; clean
    · rw [if_neg h2]
      cases chosen with
      | none => clean
      | some c => have := hr c rfl; clean

theorem condense_mem (err : BitVec 32) (hide : Bool) (rs : List Result) (s : Bool) (ch : Option Result) (r : Result)
    (h : (condense err hide rs s ch).2 = some r) : ch = some r ∨ r ∈ rs := by
  induction rs generalizing s ch with
  | nil => exact .inl h
  | cons a rs ih =>
    unfold condense at h
    by_cases h1 : hide = true ∧ minor a.err = true
    · rw [if_pos h1] at h
      exact (ih _ _ h).imp_right (List.mem_cons_of_mem _)
    · rw [if_neg h1] at h
      by_cases h2 : a.err ≠ err
      · rw [if_pos h2] at h
        exact (ih _ _ h).imp_right (List.mem_cons_of_mem _)
      · rw [if_neg h2] at h
        by_cases h3 : minor a.err = false
        · rw [if_pos h3] at h
          rcases ih _ _ h with h | h
          · cases ch with
            | none => right; simp at h; simp [h]
            | some c => left; simpa using h
          · exact .inr (List.mem_cons_of_mem _ h)
        · rw [if_neg h3] at h
          exact (ih _ _ h).imp_right (List.mem_cons_of_mem _)

theorem clean_report {w : Words} (hw : w.Clean) {rs : List Result} (hr : ∀ r ∈ rs, (27 : UInt8) ∉ r.name) (sm : Bool) :
    Clean (report w rs sm) := by
  have hn := hw.1
  have hp := hw.2.1
  unfold report
  simp only
  by_cases h : (condense (scan rs (firstErr rs) false).1 (scan rs (firstErr rs) false).2 rs true none).2 = none
      ∧ (condense (scan rs (firstErr rs) false).1 (scan rs (firstErr rs) false).2 rs true none).1 = true
  · rw [if_pos h]; exact clean_nil
  · rw [if_neg h]
    apply clean_text
    · clean
    · generalize (if sm = true then _ else (false, false) : Bool × Bool) = q
      by_cases hq : q.1 = true
      · rw [if_pos hq]
        exact clean_shortLine hw _ fun r hc => hr r ((condense_mem _ _ _ _ _ r hc).resolve_left (by simp))
      · rw [if_neg hq]
        apply clean_text (by decide +kernel)
        exact clean_flatMap fun r hm => clean_longLine hw _ (hr r hm)

theorem closed_longLine (w : Words) (hide : Bool) (r : Result) : Closed (longLine w hide r) := by
  unfold longLine Closed
  by_cases h1 : minor r.err = true
  · rw [if_pos h1]
    cases hide <;> rfl
  · rw [if_neg h1]
    by_cases h2 : r.err ≠ 0#32
    · rw [if_pos h2]; rfl
    · rw [if_neg h2]; rfl

theorem closed_shortLine (w : Words) (err : BitVec 32) (ch : Option Result) : Closed (shortLine w err ch) := by
  unfold shortLine Closed
  by_cases h1 : skippableError err = true
  · rw [if_pos h1]; rfl
  · rw [if_neg h1]
    by_cases h2 : err ≠ 0#32
    · rw [if_pos h2]; cases ch <;> rfl
    · rw [if_neg h2]; cases ch <;> rfl

theorem closed_text {s : Str} {ps : List Piece} (h : Closed ps) : Closed (.text s :: ps) := h

theorem closed_report (w : Words) (rs : List Result) (sm : Bool) : Closed (report w rs sm) := by
  unfold report
  simp only
  by_cases h : (condense (scan rs (firstErr rs) false).1 (scan rs (firstErr rs) false).2 rs true none).2 = none
      ∧ (condense (scan rs (firstErr rs) false).1 (scan rs (firstErr rs) false).2 rs true none).1 = true
  · rw [if_pos h]; rfl
  · rw [if_neg h]
    apply closed_text
    generalize (if sm = true then _ else (false, false) : Bool × Bool) = q
    by_cases hq : q.1 = true
    · rw [if_pos hq]; exact closed_shortLine _ _ _
    · rw [if_neg hq]
      apply closed_text
      exact closed_flatMap fun r _ => closed_longLine _ _ _

theorem outs_word (c : Sgr) (s : Str) (l : List Piece) (hl : ∀ p ∈ l, ∃ t, p = .text t) :
    outs (.sgr c :: .text s :: .sgr .reset :: l) = (s.map (·, c.style)).filter standsOut := by
  have : ∀ l : List Piece, (∀ p ∈ l, ∃ t, p = .text t) → outs l = [] := by
    intro l hl
    induction l with
    | nil => rfl
    | cons p l ih =>
      obtain ⟨t, rfl⟩ := hl p List.mem_cons_self
      rw [outs_text]
      exact ih fun q hq => hl q (List.mem_cons_of_mem _ hq)
  have h2 := this l hl
  unfold outs at *
  simp only [walk, List.filter_append, Sgr.style]
  rw [h2, List.append_nil]

theorem outs_longLine (w : Words) (hide : Bool) (r : Result) :
    outs (longLine w hide r) = (Report.longLine hide r).toList.flatMap word := by
  unfold longLine Report.longLine
  by_cases h1 : minor r.err = true
  · rw [if_pos h1, if_pos h1]
    cases hide
    · simp only [Bool.false_eq_true, if_false]
      rw [outs_word _ _ _ (by simp)]
      simp only [Option.toList, List.flatMap_cons, List.flatMap_nil, word, List.append_nil]; decide +kernel
    · rfl
  · rw [if_neg h1, if_neg h1]
    by_cases h2 : r.err ≠ 0#32
    · rw [if_pos h2, if_pos h2, outs_word _ _ _ (by simp)]
      simp only [Option.toList, List.flatMap_cons, List.flatMap_nil, word, List.append_nil]; decide +kernel
    · rw [if_neg h2, if_neg h2, outs_word _ _ _ (by simp)]
      simp only [Option.toList, List.flatMap_cons, List.flatMap_nil, word, List.append_nil]; decide +kernel

theorem outs_shortLine (w : Words) (err : BitVec 32) (ch : Option Result) :
    outs (shortLine w err ch) = word (Report.shortLine err ch) := by
  unfold shortLine Report.shortLine
  by_cases h1 : skippableError err = true
  · rw [if_pos h1, if_pos h1, outs_word _ _ _ (by simp)]
    simp only [word]; decide +kernel
  · rw [if_neg h1, if_neg h1]
    by_cases h2 : err ≠ 0#32
    · rw [if_pos h2, if_pos h2]
      cases ch <;> simp only [List.cons_append, List.nil_append] <;> rw [outs_word _ _ _ (by simp)] <;> (simp only [word]; decide +kernel)
    · rw [if_neg h2, if_neg h2]
      cases ch <;> simp only [List.cons_append, List.nil_append] <;> rw [outs_word _ _ _ (by simp)] <;> (simp only [word]; decide +kernel)

theorem outs_lines (w : Words) (hide : Bool) (rs : List Result) :
    rs.flatMap (fun r => outs (longLine w hide r)) = (rs.filterMap (Report.longLine hide)).flatMap word := by
  induction rs with
  | nil => rfl
  | cons r rs ih =>
    rw [List.flatMap_cons, ih, outs_longLine, List.filterMap_cons]
    cases Report.longLine hide r <;> simp

theorem outs_report (w : Words) (rs : List Result) (sm : Bool) :
    outs (report w rs sm) = (Report.print rs sm).flatMap word := by
  unfold report Report.print
  simp only
  by_cases h : (condense (scan rs (firstErr rs) false).1 (scan rs (firstErr rs) false).2 rs true none).2 = none
      ∧ (condense (scan rs (firstErr rs) false).1 (scan rs (firstErr rs) false).2 rs true none).1 = true
  · rw [if_pos h, if_pos h]; rfl
  · rw [if_neg h, if_neg h, outs_text]
    generalize (if sm = true then _ else (false, false) : Bool × Bool) = q
    by_cases hq : q.1 = true
    · rw [if_pos hq, if_pos hq, outs_shortLine]
      simp [word]
    · rw [if_neg hq, if_neg hq, outs_text, outs_flatMap fun r _ => closed_longLine _ _ _]
      simp only [List.flatMap_cons, word, List.nil_append]
      exact outs_lines w q.2 rs

/-- The texts that a run of `ulp trigger` prints have no escape characters: names of programs and files, messages. -/
def Harmless (ps : List (Words × List Result)) : Prop := ∀ p ∈ ps, p.1.Clean ∧ ∀ r ∈ p.2, (27 : UInt8) ∉ r.name

theorem clean_totals (s : Trigger.Summary) : Clean (totals s) := by
  unfold totals
  by_cases h : s.successes + s.skippes + s.failures > 0
  · rw [if_pos h]; clean
  · rw [if_neg h]; exact clean_nil

theorem closed_totals (s : Trigger.Summary) : Closed (totals s) ∧ outs (totals s) = [] := by
  unfold totals
  by_cases h : s.successes + s.skippes + s.failures > 0
  · rw [if_pos h]; exact ⟨rfl, by rw [outs_text]; rfl⟩
  · rw [if_neg h]; exact ⟨rfl, rfl⟩

theorem clean_trigger (quiet sm : Bool) {ps : List (Words × List Result)} (h : Harmless ps) (s : Trigger.Summary) :
    Clean (trigger quiet sm ps s) := by
  unfold trigger
  apply clean_append _ (clean_totals s)
  cases quiet
  · exact clean_flatMap fun p hp => clean_report (h p hp).1 (h p hp).2 sm
  · exact clean_nil

/-- C172, `ulp trigger`: with colours, a terminal shows the same characters that are written without colours; what stands out are the words
SUCCESS, FAILED and SKIPPED of the lines of the report, in green, red and yellow; and the terminal is left as it was found. -/
theorem C172_trigger_partial (sm : Bool) (ps : List (Words × List Result)) (h : Harmless ps) (s : Trigger.Summary) :
    characters (render false (trigger false sm ps s)) = render true (trigger false sm ps s)
      ∧ standout (render false (trigger false sm ps s)) = ps.flatMap (fun p => (Report.print p.2 sm).flatMap word)
      ∧ LeftNormal (render false (trigger false sm ps s)) := by
  have hc := clean_trigger false sm h s
  have hcl : ∀ p ∈ ps, Closed (report p.1 p.2 sm) := fun p _ => closed_report _ _ _
  refine ⟨characters_render _ hc, ?_, leftNormal_render _ hc ?_⟩
  · rw [standout_render _ hc]
    simp only [trigger, Bool.false_eq_true, if_false]
    rw [outs_append (closed_flatMap hcl), (closed_totals s).2, List.append_nil, outs_flatMap hcl]
    congr 1
    funext p
    exact outs_report _ _ _
  · simp only [trigger, Bool.false_eq_true, if_false]
    exact closed_append (closed_flatMap hcl) (closed_totals s).1

/-- C172, without colours: nothing stands out, on a terminal all characters arrive as they are. -/
theorem C172_plain_partial (quiet sm : Bool) (ps : List (Words × List Result)) (h : Harmless ps) (s : Trigger.Summary) :
    shown (render true (trigger quiet sm ps s)) = (render true (trigger quiet sm ps s)).map (·, .normal)
      ∧ LeftNormal (render true (trigger quiet sm ps s)) :=
  characters_plain _ (clean_render _ (clean_trigger quiet sm h s))

/-! ### `ulp patches` -/

/-- The texts of `ulp patches` without escape characters. -/
structure Texts.Clean (t : Texts) : Prop where
  pid : (27 : UInt8) ∉ t.pid
  error : ∀ e, (27 : UInt8) ∉ t.error e
  buildId : ∀ b, (27 : UInt8) ∉ t.buildId b
  version : ∀ v, (27 : UInt8) ∉ t.version v
  date : ∀ n, (27 : UInt8) ∉ t.date n
  labels : ∀ c, (27 : UInt8) ∉ t.labels c

/-- The names in a line. -/
def names : Status.Line → List Str
  | .process n => [n]
  | .library f _ _ => [f]
  | .patch c _ => [c]
  | _ => []

/-- What is to stand out in a line: the status. -/
def statusWord (t : Texts) : Status.Line → List (UInt8 × Style)
  | .enabled => inStyle .inGreen "enabled"
  | .disabledByUser => inStyle .inYellow "disabledbyuser"
  | .disabled e =>
    inStyle .inRed "disabled(internalerror:" ++ (((t.error e).filter fun c => c ≠ 32 ∧ c ≠ 10).map (·, .inRed)) ++ inStyle .inRed ")"
  | _ => []

theorem clean_line {t : Texts} (ht : t.Clean) {l : Status.Line} (hl : ∀ n ∈ names l, (27 : UInt8) ∉ n) : Clean (line t l) := by
  obtain ⟨h1, h2, h3, h4, h5, h6⟩ := ht
  cases l with
  | process n => have := hl n (by simp [names]); simp only [line]; clean
  | enabled => simp only [line]; clean
  | disabledByUser => simp only [line]; clean
  | disabled e => have := h2 e; simp only [line]; clean
  | header => simp only [line]; clean
  | library f b v =>
    have := hl f (by simp [names])
    cases b with
    | none => cases v with
      | none => simp only [line]; clean
      | some v => have := h4 v; simp only [line]; clean
    | some b =>
      have := h3 b
      cases v with
      | none => simp only [line]; clean
      | some v => have := h4 v; simp only [line]; clean
  | patch c on =>
    have := hl c (by simp [names])
    have := h6 c
    cases on with
    | none => simp only [line]; clean
    | some n => have := h5 n; simp only [line]; clean
  | empty => simp only [line]; clean

theorem closed_line (t : Texts) (l : Status.Line) : Closed (line t l) := by
  cases l with
  | library f b v => cases b <;> cases v <;> rfl
  | patch c on => cases on <;> rfl
  | _ => rfl

theorem red_filter (s : Str) : (s.map (·, Style.inRed)).filter standsOut = (s.filter fun c => c ≠ 32 ∧ c ≠ 10).map (·, .inRed) := by
  induction s with
  | nil => rfl
  | cons c s ih =>
    simp only [List.map_cons, List.filter_cons, ih]
    have : standsOut (c, Style.inRed) = decide (c ≠ 32 ∧ c ≠ 10) := by simp [standsOut, Style.inRed, Style.normal]
    rw [this]
    by_cases h : c ≠ 32 ∧ c ≠ 10 <;> simp [h]

theorem outs_line (t : Texts) (l : Status.Line) : outs (line t l) = statusWord t l := by
  cases l with
  | library f b v => cases b <;> cases v <;> simp only [line, List.cons_append, List.nil_append, outs_text] <;> rfl
  | patch c on => cases on <;> simp only [line, List.cons_append, List.nil_append, outs_text] <;> rfl
  | enabled => simp only [line, outs_text]; rw [outs_word _ _ _ (by simp)]; simp only [statusWord]; decide +kernel
  | disabledByUser => simp only [line, outs_text]; rw [outs_word _ _ _ (by simp)]; simp only [statusWord]; decide +kernel
  | disabled e =>
    simp only [line, outs_text]
    rw [outs_word _ _ _ (by simp)]
    simp only [Sgr.style, red_filter, List.filter_append, List.map_append, statusWord]
    have e1 : ((lit "disabled (internal error: ").filter fun c => decide (c ≠ 32 ∧ c ≠ 10)).map (·, Style.inRed)
        = inStyle .inRed "disabled(internalerror:" := by decide +kernel
    have e2 : ((lit ")\n").filter fun c => decide (c ≠ 32 ∧ c ≠ 10)).map (·, Style.inRed) = inStyle .inRed ")" := by decide +kernel
    rw [e1, e2]
  | _ => simp only [line, outs_text]; rfl

/-- C172, `ulp patches`: likewise; what stands out is the status of each process. -/
theorem C172_patches_partial (quiet : Bool) (ps : List (Texts × List Status.Line))
    (h : ∀ p ∈ ps, p.1.Clean ∧ ∀ l ∈ p.2, ∀ n ∈ names l, (27 : UInt8) ∉ n) :
    characters (render false (patches quiet ps)) = render true (patches quiet ps)
      ∧ standout (render false (patches quiet ps)) = ps.flatMap (fun p => p.2.flatMap (statusWord p.1))
      ∧ LeftNormal (render false (patches quiet ps)) := by
  have hc : Clean (patches quiet ps) := clean_flatMap fun p hp => clean_flatMap fun l hl => clean_line (h p hp).1 ((h p hp).2 l hl)
  have hcl : ∀ p ∈ ps, Closed (p.2.flatMap (line p.1)) := fun p _ => closed_flatMap fun l _ => closed_line _ _
  refine ⟨characters_render _ hc, ?_, leftNormal_render _ hc (closed_flatMap hcl)⟩
  rw [standout_render _ hc, patches, outs_flatMap hcl]
  congr 1
  funext p
  rw [outs_flatMap fun l _ => closed_line _ _]
  congr 1
  funext l
  exact outs_line _ _

/-! ### `ulp packer` -/

theorem walk_chars (st : Style) (s : Str) (r : List Piece) : (walk st ((Diag.chars s).map diag ++ r)).2 = (walk st r).2 := by
  induction s with
  | nil => rfl
  | cons c s ih => simpa [Diag.chars, diag, walk] using ih

/-- C172, the messages of `ulp packer` about a description: a terminal shows the same characters with and without colours, and is left as it was
found. -/
theorem C172_packer_partial (file msg errno : Str) (ln col : Nat) (opened : Option (List UInt8)) (out : List Diag.Out)
    (h : Diag.parseError file ln col msg opened errno = some out) (hc : ∀ c, Diag.Out.char c ∈ out → c ≠ 27) :
    characters (render false (out.map diag)) = render true (out.map diag) ∧ LeftNormal (render false (out.map diag)) := by
  have hcl : Clean (out.map diag) := by
    intro s hs
    obtain ⟨o, ho, he⟩ := List.mem_map.1 hs
    cases o with
    | char c =>
      simp only [diag, Piece.text.injEq] at he
      subst he
      simpa using (hc c ho).symm
    | _ => simp [diag] at he
  refine ⟨characters_render _ hcl, leftNormal_render _ hcl ?_⟩
  unfold Closed
  unfold Diag.parseError at h
  simp only at h
  cases opened with
  | none =>
    simp only [Option.some.injEq] at h
    subst h
    simp only [List.map_append, List.append_assoc, List.map_cons, List.map_nil, List.cons_append, List.nil_append]
    simp only [diag, walk, walk_chars, Sgr.style]
    rw [← List.append_nil ((Diag.chars _).map diag), walk_chars]
    rfl
  | some content =>
    simp only at h
    by_cases h0 : ln = 0 ∨ col = 0
    · rw [if_pos h0] at h; cases h
    · rw [if_neg h0] at h
      revert h
      cases (Dsc.lines content)[ln - 1]? with
      | none =>
        intro h
        simp only [Option.some.injEq] at h
        subst h
        simp only [List.map_append, List.append_assoc, List.map_cons, List.map_nil, List.cons_append, List.nil_append]
        simp only [diag, walk, walk_chars, Sgr.style]
        rw [← List.append_nil ((Diag.chars _).map diag), walk_chars]
        rfl
      | some l =>
        intro h
        simp only [Option.some.injEq] at h
        subst h
        simp only [List.map_append, List.append_assoc, List.map_cons, List.map_nil, List.cons_append, List.nil_append]
        simp only [diag, walk, walk_chars, Sgr.style]
        rw [← List.append_nil ((Diag.chars _).map diag), walk_chars]
        rfl

/-! ### Names with escape characters -/

theorem render_append (nc : Bool) (a b : List Piece) : render nc (a ++ b) = render nc a ++ render nc b := by
  simp [render]

theorem report_name (nc : Bool) (w : Words) (rs : List Result) (sm : Bool) (h : Report.print rs sm ≠ []) :
    ∃ b, render nc (report w rs sm) = lit "  " ++ w.name ++ b := by
  unfold report Report.print at *
  simp only at *
  by_cases hh : (condense (scan rs (firstErr rs) false).1 (scan rs (firstErr rs) false).2 rs true none).2 = none
      ∧ (condense (scan rs (firstErr rs) false).1 (scan rs (firstErr rs) false).2 rs true none).1 = true
  · rw [if_pos hh] at h; exact absurd rfl h
  · rw [if_neg hh]
    simp only [render, List.flatMap_cons, Piece.bytes, List.append_assoc]
    exact ⟨_, rfl⟩

/-- The names of programs and files are written as they are, escape characters included, with colours or without. -/
theorem C172_names_as_they_are (nc sm : Bool) (ps : List (Words × List Result)) (s : Trigger.Summary) (p : Words × List Result)
    (hp : p ∈ ps) (h : Report.print p.2 sm ≠ []) : ∃ a b, render nc (trigger false sm ps s) = a ++ p.1.name ++ b := by
  obtain ⟨l, r, rfl⟩ := List.append_of_mem hp
  obtain ⟨b, hb⟩ := report_name nc p.1 p.2 sm h
  refine ⟨render nc (l.flatMap fun p => report p.1 p.2 sm) ++ lit "  ", b ++ (render nc (r.flatMap fun p => report p.1 p.2 sm) ++ render nc (totals s)), ?_⟩
  simp only [trigger, Bool.false_eq_true, if_false, List.flatMap_append, List.flatMap_cons, render_append, hb, List.append_assoc]

/-- So a process can recolour the terminal of whoever runs `ulp trigger` without colours, by the name of its program. -/
theorem C172_recoloured (pid : Str) (hpid : (27 : UInt8) ∉ pid) (error : BitVec 32 → Str) (patch : Str) (hpatch : (27 : UInt8) ∉ patch)
    (s : Trigger.Summary) :
    ¬ LeftNormal (render true (trigger false true [(⟨27 :: lit "[31;1m", pid, error⟩, [⟨patch, 0#32⟩])] s)) := by
  have e : render true (trigger false true [(⟨27 :: lit "[31;1m", pid, error⟩, [⟨patch, 0#32⟩])] s)
      = lit "  " ++ (Sgr.red.bytes ++ ((lit " (pid: " ++ pid ++ lit "):" ++ lit " SUCCESS" ++ (lit " " ++ patch ++ lit "\n")) ++ render true (totals s))) := by
    have e1 : report ⟨27 :: lit "[31;1m", pid, error⟩ [⟨patch, 0#32⟩] true
        = .text (lit "  " ++ 27 :: lit "[31;1m" ++ lit " (pid: " ++ pid ++ lit "):") :: shortLine ⟨27 :: lit "[31;1m", pid, error⟩ 0#32 (some ⟨patch, 0#32⟩) := rfl
    have e2 : shortLine ⟨27 :: lit "[31;1m", pid, error⟩ 0#32 (some ⟨patch, 0#32⟩)
        = [.sgr .green, .text (lit " SUCCESS"), .sgr .reset, .text (lit " " ++ patch ++ lit "\n")] := rfl
    simp only [trigger, Bool.false_eq_true, if_false, List.flatMap_cons, List.flatMap_nil, List.append_nil, render_append, e1, e2]
    simp only [render, List.flatMap_cons, List.flatMap_nil, Piece.bytes, if_true, List.append_nil, List.nil_append, List.append_assoc, Sgr.bytes, List.cons_append]
  have hc : (27 : UInt8) ∉ (lit " (pid: " ++ pid ++ lit "):" ++ lit " SUCCESS" ++ (lit " " ++ patch ++ lit "\n")) ++ render true (totals s) := by
    apply not_mem_app _ (clean_render _ (clean_totals s))
    clean
  intro h
  unfold LeftNormal at h
  rw [e, show_text _ _ _ (by decide +kernel), show_sgr] at h
  rw [← List.append_nil (_ ++ render true (totals s)), show_text _ _ _ hc] at h
  simp [show', Sgr.style, Style.inRed, Style.normal] at h

/-! ### Whether colours are used -/

/-- Where colours are of use: standard output is a terminal, not a dumb one, and the user has not turned colours off. -/
def Capable (e : Env) : Prop := e.noColor = none ∧ e.tty = true ∧ ∃ t, e.term = some t ∧ t ≠ lit "dumb"

theorem available_iff (e : Env) : available e = true ↔ Capable e := by
  obtain ⟨n, t, y⟩ := e
  unfold available Capable
  cases n <;> cases y <;> cases t <;> simp

/-- C173, no option: colours on a capable terminal. -/
theorem C173_default (e : Env) : noColor e [] = false ↔ Capable e := by
  rw [← available_iff]
  simp [noColor]

theorem noColor_last (e : Env) (args : List Str) (a : Str) : noColor e (args ++ [a]) = option e a := by
  simp [noColor]

/-- C173, `--color`: the last one counts.  `no` turns colours off, `yes` on, and `auto` is the default.  Missing, and false (see below): that other
words are refused. -/
theorem C173_last_counts_partial (e : Env) (args : List Str) :
    noColor e (args ++ [lit "no"]) = true ∧ noColor e (args ++ [lit "yes"]) = false
      ∧ (noColor e (args ++ [lit "auto"]) = false ↔ Capable e) := by
  simp only [noColor_last]
  refine ⟨by simp [option], ?_, ?_⟩
  · unfold option
    rw [if_neg (by decide +kernel), if_neg (by decide +kernel)]
  · unfold option
    rw [if_neg (by decide +kernel), if_pos rfl, ← available_iff]
    simp

/-- Every other word turns colours on, even where standard output is a file and `NO_COLOR` is set: `never`, `off`, `No`. -/
theorem C173_other_words (e : Env) (args : List Str) (a : Str) (h1 : a ≠ lit "no") (h2 : a ≠ lit "n") (h3 : a ≠ lit "auto") :
    noColor e (args ++ [a]) = false := by
  rw [noColor_last]
  unfold option
  rw [if_neg (by simp [h1, h2]), if_neg h3]

/-! ### `--quiet` -/

/-- C174, messages: of a quiet command (`--verbose` cannot be given at the same time, see C121) only those called fatal remain. -/
theorem C174_messages (stamp : Str) (says : List Say) : stderr true false stamp says = [] ↔ ∀ s, Say.fatal s ∉ says := by
  unfold stderr
  rw [List.flatMap_eq_nil_iff]
  constructor
  · intro h s hs
    have := h _ hs
    simp only [Say.bytes, List.append_eq_nil_iff] at this
    exact absurd this.2 (by decide +kernel)
  · intro h x hx
    cases x with
    | warn s => rfl
    | debug s => rfl
    | fatal s => exact absurd hx (h s)

/-- C174, `ulp trigger --quiet`: no report, but the totals are printed all the same if there is a process to count. -/
theorem C174_trigger_totals (nc sm : Bool) (ps : List (Words × List Result)) (s : Trigger.Summary) :
    render nc (trigger true sm ps s) = [] ↔ s.successes + s.skippes + s.failures = 0 := by
  simp only [trigger, if_true, List.nil_append, totals]
  by_cases h : s.successes + s.skippes + s.failures > 0
  · rw [if_pos h]
    simp only [render, List.flatMap_cons, Piece.bytes, List.append_eq_nil_iff]
    constructor
    · intro hh
      exact absurd hh.1.1.1.1.1.1.1 (by decide +kernel)
    · omega
  · rw [if_neg h]
    simp only [render, List.flatMap_nil, true_iff]
    omega

/-- C174, `ulp patches --quiet` prints what it prints without it: all lines of all processes. -/
theorem C174_patches_all (nc : Bool) (ps : List (Texts × List Status.Line)) (p : Texts × List Status.Line) (hp : p ∈ ps) (l : Status.Line)
    (hl : l ∈ p.2) : ∃ a b, render nc (patches true ps) = a ++ render nc (line p.1 l) ++ b := by
  obtain ⟨x, y, rfl⟩ := List.append_of_mem hp
  obtain ⟨u, v, huv⟩ := List.append_of_mem hl
  refine ⟨render nc (x.flatMap fun p => p.2.flatMap (line p.1)) ++ render nc (u.flatMap (line p.1)), render nc (v.flatMap (line p.1)) ++
    render nc (y.flatMap fun p => p.2.flatMap (line p.1)), ?_⟩
  simp only [patches, List.flatMap_append, List.flatMap_cons, huv, render_append, List.append_assoc]

/-- C174, `ulp check --quiet` prints nothing, unless the process may be left in disorder: threads could not be let go, or the check did not run
to its end. -/
theorem C174_check_partial (w : Check.World) (c : Check.Container) (p : Check.Proc) (says : List Say) (h : checkSays w c p = some says)
    (h1 : w.hijack ≠ 265) (h2 : w.run ≠ -1) (h3 : w.restore = 0) (stamp : Str) : stderr true false stamp says = [] := by
  rw [C174_messages]
  intro s hs
  unfold checkSays at h
  have one : ∀ t : Str, ¬ Say.fatal s ∈ [Say.warn t] := by simp
  cases he : Check.extractTo c with
  | ub => simp [he] at h
  | null => simp only [he, Option.some.injEq] at h; subst h; exact one _ hs
  | unset =>
    simp only [he] at h
    by_cases hn : w.stackNull = true
    · rw [if_pos hn] at h; simp only [Option.some.injEq] at h; subst h; exact one _ hs
    · rw [if_neg hn] at h; cases h
  | buf b =>
    simp only [he] at h
    cases hp : Metadata.parse ⟨b, w.alloc⟩ w.c0 with
    | ub => simp [hp] at h
    | err e => simp only [hp, Option.some.injEq] at h; subst h; exact one _ hs
    | ok q =>
      obtain ⟨q, r⟩ := q
      simp only [hp, Option.some.injEq] at h
      subst h
      unfold checkRest at hs
      simp only at hs
      have hr : (Check.patchApplied w q.patchId { p with held := true }).1 ≠ -1 := by
        unfold Check.patchApplied
        simp only [Bool.not_true, Bool.false_eq_true, if_false]
        by_cases hw : (!w.write) = true
        · rw [if_pos hw]; simp
        · rw [if_neg hw]
          by_cases hrun : w.run ≠ 0
          · rw [if_pos hrun]; exact h2
          · rw [if_neg hrun]; simp
      generalize Check.patchApplied w q.patchId { p with held := true } = r at hs hr
      simp only [h1, h3, hr, if_false, ne_eq, not_true_eq_false, not_false_eq_true] at hs
      grind

/-- And in these cases it does: threads that could not be let go. -/
theorem C174_check_speaks (w : Check.World) (f : Check.Proc → Int × Int × Check.Proc) (p : Check.Proc) (hn : Text.isnumber w.pid = true)
    (hi : w.init = 0) (hs : w.sanity = 0) (h : w.hijack = 265 ∨ w.hijack = 0 ∧ w.restore ≠ 0) (stamp : Str) :
    stderr true false stamp (checkRest w f p) ≠ [] := by
  rw [ne_eq, C174_messages]
  intro hh
  unfold checkRest at hh
  rw [if_neg (by simp [hn]), if_neg (by simp [hi]), if_neg (by simp [hs])] at hh
  rcases h with h | ⟨h, h'⟩
  · rw [if_pos h] at hh
    exact hh _ (List.mem_singleton.2 rfl)
  · rw [if_neg (by omega), if_neg (by omega)] at hh
    simp only [if_pos h'] at hh
    exact hh _ (List.mem_append_right _ (List.mem_singleton.2 rfl))

/-! ### Lines of `ulp patches` -/

/-- Empty, or complete lines. -/
def Whole (s : Str) : Prop := s = [] ∨ s.getLast? = some 10

theorem whole_append {a b : Str} (ha : Whole a) (hb : Whole b) : Whole (a ++ b) := by
  rcases hb with rfl | hb
  · simpa using ha
  · exact .inr (by rw [List.getLast?_append, hb]; rfl)

theorem whole_end {a b : Str} (hb : b.getLast? = some 10) : Whole (a ++ b) := .inr (by rw [List.getLast?_append, hb]; rfl)

theorem whole_flatMap {α : Type} {f : α → Str} {l : List α} (h : ∀ x ∈ l, Whole (f x)) : Whole (l.flatMap f) := by
  induction l with
  | nil => exact .inl rfl
  | cons a l ih =>
    rw [List.flatMap_cons]
    exact whole_append (h a List.mem_cons_self) (ih fun x hx => h x (List.mem_cons_of_mem _ hx))

/-- Dates and lines with labels end in line ends, as `asctime` makes them, and tools/patches.c:366-368. -/
structure Texts.Lined (t : Texts) : Prop where
  date : ∀ n, ∃ d, t.date n = d ++ [10] ∧ (10 : UInt8) ∉ d
  labels : ∀ c, Whole (t.labels c)

theorem whole_line {t : Texts} (ht : t.Lined) {l : Status.Line} (hl : ∀ c, l ≠ .patch c none) : Whole (render true (line t l)) := by
  have fin : ∀ x : Str, Whole (x ++ lit "\n") := fun x => whole_end (by decide +kernel)
  cases l with
  | process n => simpa [line, render, Piece.bytes] using fin (lit "PID: " ++ t.pid ++ lit ", name: " ++ n)
  | enabled => exact .inr (by simp only [line]; decide +kernel)
  | disabledByUser => exact .inr (by simp only [line]; decide +kernel)
  | disabled e =>
    have := whole_end (a := lit "  Livepatching status: " ++ (lit "disabled (internal error: " ++ t.error e)) (b := lit ")\n") (by decide +kernel)
    simpa [line, render, Piece.bytes] using this
  | header => exact .inr (by simp only [line]; decide +kernel)
  | library f b v =>
    have : ∀ x : Str, Whole (x ++ lit ":\n") := fun x => whole_end (by decide +kernel)
    simp only [line, render, List.flatMap_append, List.flatMap_cons, List.flatMap_nil, Piece.bytes, List.append_nil]
    exact this _
  | patch c on =>
    cases on with
    | none => exact absurd rfl (hl c)
    | some n =>
      obtain ⟨d, hd, -⟩ := ht.date n
      simp only [line, render, List.flatMap_append, List.flatMap_cons, List.flatMap_nil, Piece.bytes, List.append_nil]
      refine whole_append ?_ (ht.labels c)
      rw [hd, ← List.append_assoc, ← List.append_assoc]
      exact whole_end rfl
  | empty => exact .inr (by simp only [line]; decide +kernel)

/-- C175: `ulp patches` shows each live patch on a line of its own, if it knows the time when each was applied.  Missing, and false (see below): live
patches without a time. -/
theorem C175_own_line_partial (quiet : Bool) (ps : List (Texts × List Status.Line)) (h : ∀ p ∈ ps, p.1.Lined ∧ ∀ c, Status.Line.patch c none ∉ p.2)
    (p : Texts × List Status.Line) (hp : p ∈ ps) (c : Str) (n : Nat) (hc : (10 : UInt8) ∉ c) (hl : .patch c (some n) ∈ p.2) (d : Str)
    (hd : p.1.date n = d ++ [10]) : IsLine (lit "      livepatch: " ++ c ++ lit " loaded on " ++ d) (render true (patches quiet ps)) := by
  obtain ⟨x, y, rfl⟩ := List.append_of_mem hp
  obtain ⟨u, v, huv⟩ := List.append_of_mem hl
  have hw : ∀ q ∈ x ++ p :: y, ∀ l ∈ q.2, Whole (render true (line q.1 l)) := by
    intro q hq l hl
    exact whole_line (h q hq).1 fun c e => (h q hq).2 c (e ▸ hl)
  have rf : ∀ {α : Type} (f : α → List Piece) (l : List α), render true (l.flatMap f) = l.flatMap fun x => render true (f x) := by
    intro α f l
    simp [render, List.flatMap_assoc]
  refine ⟨render true (x.flatMap fun p => p.2.flatMap (line p.1)) ++ render true (u.flatMap (line p.1)),
    p.1.labels c ++ (render true (v.flatMap (line p.1)) ++ render true (y.flatMap fun p => p.2.flatMap (line p.1))), ?_, ?_, ?_⟩
  · simp only [patches, List.flatMap_append, List.flatMap_cons, huv, render_append, List.append_assoc]
    have e : render true (line p.1 (.patch c (some n))) = lit "      livepatch: " ++ (c ++ (lit " loaded on " ++ (d ++ [10]))) ++ p.1.labels c := by
      simp only [line, render, List.flatMap_append, List.flatMap_cons, List.flatMap_nil, Piece.bytes, List.append_nil, hd, List.append_assoc]
    rw [e]
    simp only [List.append_assoc, List.cons_append, List.nil_append]
  · obtain ⟨d', hd', hn⟩ := (h p hp).1.date n
    have : d = d' := by rw [hd] at hd'; exact List.append_cancel_right hd'
    subst this
    have e1 : (10 : UInt8) ∉ lit "      livepatch: " := by decide +kernel
    have e2 : (10 : UInt8) ∉ lit " loaded on " := by decide +kernel
    simp [e1, e2, hc, hn]
  · refine whole_append ?_ ?_
    · rw [rf]
      refine whole_flatMap fun q hq => ?_
      rw [rf]
      exact whole_flatMap fun l hl => hw q (List.mem_append_left _ hq) l hl
    · rw [rf]
      exact whole_flatMap fun l hl => hw p (by simp) l (by rw [huv]; exact List.mem_append_left _ hl)

/-- Live patches whose time is not known (of processes with a libpulp before 0.3.1) and which have no labels are shown on one line. -/
theorem C175_joined (t : Texts) (c₁ c₂ : Str) (h1 : (10 : UInt8) ∉ c₁) (h2 : (10 : UInt8) ∉ c₂) (hl : ∀ c, t.labels c = []) (l : Str) :
    IsLine l (render true ([Status.Line.patch c₁ none, .patch c₂ none, .empty].flatMap (line t)))
      ↔ l = lit "      livepatch: " ++ c₁ ++ lit "      livepatch: " ++ c₂ := by
  have e : render true ([Status.Line.patch c₁ none, .patch c₂ none, .empty].flatMap (line t))
      = (lit "      livepatch: " ++ c₁ ++ lit "      livepatch: " ++ c₂) ++ [10] := by
    have : lit "\n" = [10] := by decide +kernel
    simp [render, line, Piece.bytes, hl, this]
  have hn : (10 : UInt8) ∉ lit "      livepatch: " ++ c₁ ++ lit "      livepatch: " ++ c₂ := by
    have e1 : (10 : UInt8) ∉ lit "      livepatch: " := by decide +kernel
    simp [e1, h1, h2]
  rw [e]
  generalize lit "      livepatch: " ++ c₁ ++ lit "      livepatch: " ++ c₂ = x at hn
  constructor
  · rintro ⟨a, b, he, hl, ha⟩
    have hb : b = [] := by
      rcases List.eq_nil_or_concat b with rfl | ⟨b', z, rfl⟩
      · rfl
      · exfalso
        rw [show a ++ l ++ 10 :: b'.concat z = (a ++ l ++ 10 :: b') ++ [z] by simp] at he
        have := (List.append_inj' he rfl).1
        exact hn (this ▸ by simp)
    subst hb
    have := (List.append_inj' he rfl).1
    rcases ha with rfl | ha
    · simpa using this.symm
    · exfalso
      obtain ⟨a', rfl⟩ : ∃ a', a = a' ++ [10] := by
        rcases List.eq_nil_or_concat a with rfl | ⟨a', z, rfl⟩
        · simp at ha
        · simp at ha; exact ⟨a', by simp [ha]⟩
      exact hn (this ▸ by simp)
  · rintro rfl
    exact ⟨[], [], by simp, hn, .inl rfl⟩

/-! ### Concrete cases -/

def demoWords : Words := ⟨lit "nginx", lit "42", fun _ => lit "no"⟩
def demoResults : List Result := [⟨lit "a.so", 0#32⟩, ⟨lit "b.so", 2#32⟩]

theorem demo_harmless : Harmless [(demoWords, demoResults)] := by
  intro p hp
  obtain rfl := List.mem_singleton.1 hp
  refine ⟨⟨by decide +kernel, by decide +kernel, fun e => by simp only [demoWords]; decide +kernel⟩, ?_⟩
  decide +kernel

/-- Two patches, one applied, one failed. -/
example : render true (trigger false true [(demoWords, demoResults)] ⟨0, 1, 0, 1⟩)
    = lit "  nginx (pid: 42):\n    SUCCESS a.so\n    FAILED b.so: no\nulp: Processes patched: 1, Skipped: 0, Failed: 1.\n" := by decide +kernel

example : standout (render false (trigger false true [(demoWords, demoResults)] ⟨0, 1, 0, 1⟩)) = inStyle .inGreen "SUCCESS" ++ inStyle .inRed "FAILED" := by
  rw [(C172_trigger_partial true _ demo_harmless _).2.1]
  decide +kernel

example : LeftNormal (render true (trigger true true [(demoWords, demoResults)] ⟨0, 1, 0, 1⟩)) := (C172_plain_partial true true _ demo_harmless _).2

def demoTexts : Texts := ⟨lit "42", fun _ => lit "oops", fun _ => lit "ab", fun _ => lit "0.3.1", fun _ => lit "Mon\n", fun _ => lit "        bug labels: bsc#1 \n"⟩

def demoLines : List Status.Line :=
  [.process (lit "nginx"), .disabled 5, .header, .library (lit "/lib/libc.so.6") (some [1]) none, .patch (lit "a.so") (some 7), .patch (lit "b.so") (some 8), .empty]

theorem demo_texts : demoTexts.Clean := by
  constructor <;> intros <;> simp only [demoTexts] <;> decide +kernel

example : standout (render false (patches true [(demoTexts, demoLines)])) = inStyle .inRed "disabled(internalerror:oops)" := by
  rw [(C172_patches_partial true [(demoTexts, demoLines)] (by
    intro p hp
    obtain rfl := List.mem_singleton.1 hp
    exact ⟨demo_texts, by decide +kernel⟩)).2.1]
  decide +kernel

/-- A message about the second line of a description. -/
example : ∃ out, Diag.parseError (lit "x.dsc") 2 1 (lit "bad") (some (lit "a\nb:c\n")) [] = some out
    ∧ render true (out.map diag) = lit "x.dsc:2:1: error: bad\nb:c\n^\n" ∧ LeftNormal (render false (out.map diag)) := by
  obtain ⟨out, ho⟩ : ∃ out, Diag.parseError (lit "x.dsc") 2 1 (lit "bad") (some (lit "a\nb:c\n")) [] = some out :=
    Option.isSome_iff_exists.1 (by decide +kernel)
  have hr : (Diag.parseError (lit "x.dsc") 2 1 (lit "bad") (some (lit "a\nb:c\n")) []).map (fun out => render true (out.map diag))
      = some (lit "x.dsc:2:1: error: bad\nb:c\n^\n") := by decide +kernel
  have hn : ∀ o ∈ (Diag.parseError (lit "x.dsc") 2 1 (lit "bad") (some (lit "a\nb:c\n")) []).getD [], o ≠ .char 27 := by decide +kernel
  rw [ho] at hr hn
  refine ⟨out, ho, by simpa using hr, (C172_packer_partial _ _ _ 2 1 _ out ho ?_).2⟩
  rintro c hc rfl
  exact hn _ hc rfl

example : ∃ a b, render true (trigger false false [(demoWords, demoResults)] ⟨0, 1, 0, 1⟩) = a ++ lit "nginx" ++ b :=
  C172_names_as_they_are true false _ _ (demoWords, demoResults) List.mem_cons_self (by decide +kernel)

example : ¬ LeftNormal (render true (trigger false true [(⟨27 :: lit "[31;1m", lit "42", fun _ => []⟩, [⟨lit "a.so", 0#32⟩])] ⟨0, 1, 0, 0⟩)) :=
  C172_recoloured (lit "42") (by decide +kernel) _ (lit "a.so") (by decide +kernel) _

example : noColor ⟨none, some (lit "xterm"), true⟩ [] = false := (C173_default _).2 ⟨rfl, rfl, _, rfl, by decide +kernel⟩
example : noColor ⟨none, some (lit "dumb"), true⟩ [] = true := by decide +kernel
/-- Into a pipe: `--color=yes --color=auto` is no, and `--color=no --color=yes` is yes. -/
example : noColor ⟨none, some (lit "xterm"), false⟩ [lit "yes", lit "auto"] = true ∧ noColor ⟨none, some (lit "xterm"), false⟩ [lit "no", lit "yes"] = false := by
  refine ⟨?_, (C173_last_counts_partial _ [lit "no"]).2.1⟩
  have := (C173_last_counts_partial ⟨none, some (lit "xterm"), false⟩ [lit "yes"]).2.2
  rw [← Bool.not_eq_false]
  exact fun h => absurd (this.1 h).2.1 (by decide)
example : noColor ⟨some [], none, false⟩ ([lit "no"] ++ [lit "never"]) = false :=
  C173_other_words _ _ _ (by decide +kernel) (by decide +kernel) (by decide +kernel)

example : stderr true false (lit "[now] ") [.warn (lit "a"), .debug (lit "b")] = [] := (C174_messages _ _).2 (by simp)

example : render true (trigger true true [(demoWords, demoResults)] ⟨0, 1, 0, 1⟩) ≠ [] := by
  rw [ne_eq, C174_trigger_totals]; decide

example : ∃ a b, render true (patches true [(demoTexts, demoLines)]) = a ++ lit "PID: 42, name: nginx\n" ++ b :=
  have e : render true (line demoTexts (.process (lit "nginx"))) = lit "PID: 42, name: nginx\n" := by decide +kernel
  e ▸ C174_patches_all true [(demoTexts, demoLines)] (demoTexts, demoLines) List.mem_cons_self (.process (lit "nginx")) (by decide +kernel)

/-- A process whose threads cannot be let go. -/
example (p : Check.Proc) : stderr true false [] (checkRest ⟨fun _ _ => true, [], false, some (lit "42"), 0, 0, 0, true, 0, 265⟩ (fun p => (0, 1, p)) p) ≠ [] :=
  C174_check_speaks _ _ _ (by decide +kernel) rfl rfl (.inr ⟨rfl, by decide⟩) _

/-- A file that is no ELF file. -/
example (w : Check.World) (p : Check.Proc) (h1 : w.hijack ≠ 265) (h2 : w.run ≠ -1) (h3 : w.restore = 0) :
    stderr true false [] [.warn (lit "error extracting .ulp section")] = [] :=
  C174_check_partial w ⟨false, none, []⟩ p _ rfl h1 h2 h3 []

example : IsLine (lit "      livepatch: a.so loaded on Mon") (render true (patches false [(demoTexts, demoLines)])) := by
  have := C175_own_line_partial false [(demoTexts, demoLines)] (by
    intro p hp
    obtain rfl := List.mem_singleton.1 hp
    refine ⟨⟨fun n => ⟨lit "Mon", by simp only [demoTexts]; decide +kernel, by decide +kernel⟩, fun c => .inr (by simp only [demoTexts]; decide +kernel)⟩, ?_⟩
    intro c hc
    simp [demoLines] at hc) (demoTexts, demoLines) List.mem_cons_self (lit "a.so") 7 (by decide +kernel) (by decide +kernel) (lit "Mon")
    (by simp only [demoTexts]; decide +kernel)
  have e : lit "      livepatch: " ++ lit "a.so" ++ lit " loaded on " ++ lit "Mon" = lit "      livepatch: a.so loaded on Mon" := by decide +kernel
  rwa [e] at this

example : IsLine (lit "      livepatch: a.so      livepatch: b.so")
    (render true ([Status.Line.patch (lit "a.so") none, .patch (lit "b.so") none, .empty].flatMap (line { demoTexts with labels := fun _ => [] }))) :=
  (C175_joined _ (lit "a.so") (lit "b.so") (by decide +kernel) (by decide +kernel) (fun _ => rfl) _).2 (by decide +kernel)

end Verif.Paint
