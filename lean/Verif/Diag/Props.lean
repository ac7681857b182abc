import Verif.Diag.Lemmas

/-!
C140: what `ulp packer` prints about a description that it refuses; C141: the line it names is the one to blame.
-/

namespace Verif.Diag

open Verif.Extract (SoInfo Sym getSymbol)
open Verif.Metadata (Ref)
open Verif.Dsc (Env File Acc Bytes lines strchr strchr_ok strchr_none_iff chomp)
open Verif.Diag.Spec

/-! ### C140 -/

theorem printed {file : Str} {line col : Nat} {msg : Str} {content errno l : Str} (hk : 1 ≤ line) (h1 : 1 ≤ col) (hl : (lines content)[line - 1]? = some l)
    (h2 : col ≤ (bare l).length + 1) :
    ∃ o w, parseError file line col msg (some content) errno = some o ∧ text o = message file line col msg l w.length ∧ Marked l col w ∧
      redPieces none o = [lit "error: ", w, 94 :: List.replicate (w.length - 1) 126] := by
  have hno : 10 ∉ bare l := bare_no (Dsc.lines_newline (List.mem_of_getElem? hl))
  obtain ⟨t, hlt, ht⟩ := split_bare (l := l)
  have hle : col - 1 ≤ (bare l).length := by omega
  have htake : l.take (col - 1) = (bare l).take (col - 1) := by
    conv => lhs; rw [hlt]
    rw [List.take_append_of_le_length hle]
  have hdrop : l.drop (col - 1) = (bare l).drop (col - 1) ++ t := by
    conv => lhs; rw [hlt]
    rw [List.drop_append_of_le_length hle]
  have hmin : min (col - 1) l.length = col - 1 := by
    have : (bare l).length ≤ l.length := by rw [congrArg List.length hlt, List.length_append]; omega
    omega
  have hget : l[col - 1]? = ((bare l).drop (col - 1) ++ t).head? := by rw [← hdrop, List.head?_drop]
  have hsplit : bare l = (bare l).take (col - 1) ++ (bare l).drop (col - 1) := (List.take_append_drop ..).symm
  have hdno : 10 ∉ (bare l).drop (col - 1) := fun h => hno (List.mem_of_mem_drop h)
  have hlen : ((bare l).take (col - 1)).length + 1 = col := by rw [List.length_take]; omega
  have key : ∃ w r, redPart (l[col - 1]? == some 58) (l.drop (col - 1)) = (w, r) ∧ Marked l col w ∧ (bare l).drop (col - 1) = w ++ r.filter (· != 10) := by
    rw [hget, hdrop]
    generalize hd : (bare l).drop (col - 1) = d at *
    by_cases hh : ∃ d', d = 58 :: d'
    · obtain ⟨d', rfl⟩ := hh
      refine ⟨[58], d' ++ t, by simp [redPart], ⟨_, d', by rw [List.append_assoc]; exact hsplit, hlen, .inl rfl⟩, ?_⟩
      have : ∀ x ∈ d', (x != 10) = true := by
        intro x hx
        have : x ≠ 10 := fun h => hdno (h ▸ List.mem_cons_of_mem _ hx)
        simpa using this
      rcases ht with rfl | rfl <;> simp [List.filter_append, List.filter_eq_self.mpr this]
    · have hc : ((d ++ t).head? == some 58) = false := by
        cases d with
        | nil => rcases ht with rfl | rfl <;> decide
        | cons x d =>
          have : x ≠ 58 := fun h => hh ⟨d, by rw [h]⟩
          simpa using this
      rw [hc]
      obtain ⟨i1, i2⟩ := redPart_eq hdno ht
      refine ⟨_, _, i1, ⟨_, d.dropWhile (· != 58), ?_, hlen, .inr ⟨takeWhile_no, ?_⟩⟩, ?_⟩
      · rw [List.append_assoc, List.takeWhile_append_dropWhile]; exact hsplit
      · rcases dropWhile_head (s := d) with h | h
        · exact .inl h
        · refine .inr ⟨h, fun h' => hh ?_⟩
          cases d with
          | nil => cases h
          | cons x d =>
            by_cases hx : x = 58
            · exact ⟨d, by rw [hx]⟩
            · rw [List.takeWhile_cons, if_pos (by simpa using hx)] at h'; cases h'
      · rw [i2, List.takeWhile_append_dropWhile]
  obtain ⟨w, r, hr, hm, hw⟩ := key
  unfold parseError
  simp only
  rw [if_neg (by omega), hl]
  simp only
  rw [hr]
  refine ⟨_, w, rfl, ?_, hm, ?_⟩
  · simp only [text_append, text_chars, text, message, hmin, htake, List.append_nil, List.nil_append, List.append_assoc]
    have : bare l = (bare l).take (col - 1) ++ (w ++ r.filter (· != 10)) := by rw [← hw]; exact hsplit
    conv => rhs; rw [this]
    have e1 : lit ": error: " = lit ": " ++ lit "error: " := by decide +kernel
    rw [e1]
    simp only [List.append_assoc, List.cons_append, List.nil_append]
  · simp only [List.append_assoc, List.cons_append, List.nil_append, redPieces, red_none, red_some]
    simp [chars, redPieces]

/-- **C140** (message) For each description that is refused, the message has the line it is about, with a mark below a part of it. -/
theorem C140_message {e : Env} {file content : Str} {line col : Nat} {why : Why} (h : parseLines e (lines content) = .err line col why) :
    (why = .empty ∧ line = (lines content).length + 1 ∧ col = 1) ∨
    ∃ l o w, (lines content)[line - 1]? = some l ∧ 1 ≤ line ∧ complain e file content = some o ∧ text o = message file line col (why.text file) l w.length ∧ Marked l col w ∧
      redPieces none o = [lit "error: ", w, 94 :: List.replicate (w.length - 1) 126] := by
  rcases parse_err h with h1 | ⟨pre, l, post, h1, rfl, -, -, h2, -⟩
  · exact .inl h1
  · have hl : (lines content)[pre.length + 1 - 1]? = some l := by rw [h1]; simp
    obtain ⟨o, w, h3, h4, h5, h6⟩ := printed (file := file) (msg := why.text file) (errno := []) (by omega) h2.pos hl h2.le
    exact .inr ⟨l, o, w, hl, by omega, by unfold complain; rw [h]; exact h3, h4, h5, h6⟩

theorem wordAt_unique {l : Str} {col : Nat} {x w : Str} (h : WordAt l col x) (hx : x ≠ []) (hm : Marked l col w) : w = x := by
  obtain ⟨a, b, h1, h2, h3, h4⟩ := h
  obtain ⟨a', b', h1', h2', h3'⟩ := hm
  rw [h1, List.append_assoc, List.append_assoc] at h1'
  obtain ⟨rfl, h5⟩ := List.append_inj h1' (by omega)
  have notc : ∀ y z : Str, 58 ∉ x → x ++ y ≠ 58 :: z := by
    intro y z hn he
    cases x with
    | nil => exact hx rfl
    | cons c x => rw [List.cons_append] at he; injection he with he; exact hn (by simp [he])
  have same : ∀ (p q r s : Str), 58 ∉ p → 58 ∉ q → (r = [] ∨ r.head? = some 58) → (s = [] ∨ s.head? = some 58) → p ++ r = q ++ s → p = q := by
    intro p
    induction p with
    | nil =>
      intro q r s _ hq hr hs he
      cases q with
      | nil => rfl
      | cons c q =>
        rw [List.nil_append, List.cons_append] at he
        subst he
        rcases hr with hr | hr
        · cases hr
        · simp at hr; exact absurd (by simp [hr]) hq
    | cons c p ih =>
      intro q r s hp hq hr hs he
      cases q with
      | nil =>
        rw [List.nil_append, List.cons_append] at he
        subst he
        rcases hs with hs | hs
        · cases hs
        · simp at hs; exact absurd (by simp [hs]) hp
      | cons d q =>
        rw [List.cons_append, List.cons_append] at he
        injection he with h1 h2
        rw [h1, ih q r s (fun h => hp (by simp [h])) (fun h => hq (by simp [h])) hr hs h2]
  rcases h3' with rfl | ⟨h6, h7⟩
  · exact absurd h5 (notc _ _ h4)
  · exact (same _ _ _ _ h4 h6 h3 (h7.imp id (·.1)) h5).symm

/-- **C140** (partial: no NUL characters) If a symbol is said not to be present in a file, then the file does not have it, and its name is what is marked. -/
theorem C140_missing_partial {e : Env} {file content : Str} {line col : Nat} {x path : Str} (h : parseLines e (lines content) = .err line col (.missing x path))
    (h0 : 0 ∉ content) (hx : x ≠ []) :
    Lacks e path x ∧ ∃ l o, (lines content)[line - 1]? = some l ∧ WordAt l col x ∧ complain e file content = some o ∧
      text o = message file line col (lit "symbol " ++ x ++ lit " is not present in " ++ path) l x.length ∧
      redPieces none o = [lit "error: ", x, 94 :: List.replicate (x.length - 1) 126] := by
  rcases parse_err h with ⟨h1, -⟩ | ⟨pre, l, post, h1, rfl, -, -, h2, -⟩
  · cases h1
  · have hl : (lines content)[pre.length + 1 - 1]? = some l := by rw [h1]; simp
    obtain ⟨o, w, h3, h4, h5, h6⟩ := printed (file := file) (msg := (Why.missing x path).text file) (errno := []) (by omega) h2.pos hl h2.le
    have h0l : 0 ∉ l := by
      intro hm
      apply h0
      rw [← Dsc.lines_flatten content]
      exact List.mem_flatten.mpr ⟨l, List.mem_of_getElem? hl, hm⟩
    have hw := (h2.miss x path rfl).1 h0l
    have := wordAt_unique hw hx h5
    subst this
    exact ⟨(h2.miss _ path rfl).2, l, o, hl, hw, by unfold complain; rw [h]; exact h3, h4, h6⟩

/-- **C140** (partial: no NUL characters) If something is missing after the last colon of a line, that colon is marked. -/
theorem C140_expected_partial {e : Env} {file content : Str} {line col : Nat} (h : parseLines e (lines content) = .err line col .expected) (h0 : 0 ∉ content) :
    ∃ l o a, (lines content)[line - 1]? = some l ∧ bare l = a ++ [58] ∧ complain e file content = some o ∧
      text o = message file line (a.length + 1) (lit "expected target variable or offset") l 1 ∧ redPieces none o = [lit "error: ", [58], [94]] := by
  rcases parse_err h with ⟨h1, -⟩ | ⟨pre, l, post, h1, rfl, -, -, h2, -⟩
  · cases h1
  · have hl : (lines content)[pre.length + 1 - 1]? = some l := by rw [h1]; simp
    obtain ⟨o, w, h3, h4, h5, h6⟩ := printed (file := file) (msg := Why.expected.text file) (errno := []) (by omega) h2.pos hl h2.le
    have h0l : 0 ∉ l := by
      intro hm
      apply h0
      rw [← Dsc.lines_flatten content]
      exact List.mem_flatten.mpr ⟨l, List.mem_of_getElem? hl, hm⟩
    obtain ⟨a, ha, rfl⟩ := h2.exp rfl h0l
    have hw : w = [58] := by
      obtain ⟨a', b', h1', h2', h3'⟩ := h5
      rw [ha, List.append_assoc] at h1'
      obtain ⟨rfl, h5⟩ := List.append_inj h1' (by omega)
      rcases h3' with rfl | ⟨h6, h7⟩
      · rfl
      · cases w with
        | nil =>
          rcases h7 with rfl | ⟨-, h⟩
          · cases h5
          · exact absurd rfl h
        | cons c w => rw [List.cons_append] at h5; injection h5 with h8; exact absurd (by simp [← h8]) h6
    subst hw
    exact ⟨l, o, a, hl, ha, by unfold complain; rw [h]; exact h3, h4, h6⟩

/-- **C140** (no container) A description of blank lines and comments only. -/
theorem C140_empty {e : Env} {file content : Str} (hc : ∀ l ∈ lines content, l.head? = some 10 ∨ l.head? = some 33) :
    ∃ o, complain e file content = some o ∧ text o = file ++ lit ":" ++ Text.printDec ((lines content).length + 1) ++
      lit ":1: error: Unable to parse description file: is empty\nFile is empty or is a directory\n" := by
  have h : ∀ (ls : List Str) n, (∀ l ∈ ls, l.head? = some 10 ∨ l.head? = some 33) → readContainer e n ls = .err (n + ls.length + 1) 1 .empty := by
    intro ls
    induction ls with
    | nil => intro n _; rfl
    | cons l ls ih =>
      intro n hls
      rw [readContainer, if_pos (hls l (by simp)), ih (n + 1) fun l hl => hls l (by simp [hl])]
      simp; omega
  have hp : parseLines e (lines content) = .err ((lines content).length + 1) 1 .empty := by
    rw [parseLines_eq, h _ 0 hc]; simp
  unfold complain
  rw [hp]
  unfold parseError
  simp only
  rw [if_neg (by omega)]
  simp only [Nat.add_sub_cancel, List.getElem?_eq_none (Nat.le_refl (lines content).length)]
  refine ⟨_, rfl, ?_⟩
  simp only [text_append, text_chars, text, Why.text, List.append_assoc, List.nil_append]
  have e1 : Text.printDec 1 = lit "1" := by decide +kernel
  rw [e1]
  have e2 : (lit ":" ++ (lit "1" ++ (lit ": " ++ (lit "error: " ++ (lit "Unable to parse description file: is empty" ++ ([10] ++ lit "File is empty or is a directory\n")))))) =
      lit ":1: error: Unable to parse description file: is empty\nFile is empty or is a directory\n" := by decide +kernel
  rw [e2]

/-! ### C141 -/

/-- **C141** (blame) If that line is emptied, there is no message about it or a line before it any more. -/
theorem C141_blame {e : Env} {ls : List Str} {line col : Nat} {why : Why} (h : parseLines e ls = .err line col why) (hw : why ≠ .empty) {line' col' : Nat} {why' : Why}
    (h' : parseLines e (blank ls line) = .err line' col' why') : line < line' := by
  rcases parse_err h with ⟨h1, -⟩ | ⟨pre, l, post, rfl, rfl, -, h2, -⟩
  · exact absurd h1 hw
  · refine h2 post line' col' why' ?_
    rw [← h', blank]
    simp [List.set_append_right]

/-- **C141** (prefix) What comes after that line has no influence. -/
theorem C141_prefix {e : Env} {ls : List Str} {line col : Nat} {why : Why} (h : parseLines e ls = .err line col why) (hw : why ≠ .empty) (rest : List Str) :
    parseLines e (ls.take line ++ rest) = .err line col why := by
  rcases parse_err h with ⟨h1, -⟩ | ⟨pre, l, post, rfl, rfl, h2, -⟩
  · exact absurd h1 hw
  · rw [show (pre ++ l :: post).take (pre.length + 1) = pre ++ [l] by rw [List.take_append]; simp [List.take_of_length_le], List.append_assoc]
    exact h2 rest

theorem forget_bind {α β : Type} (m : Res α) (f : α → Res β) : forget (m >>= f) = (forget m >>= fun a => forget (f a)) := by
  cases m with
  | ok a => rfl
  | ub => rfl
  | err l c w => cases w <;> rfl

theorem forget_openInfo (e : Env) (path : Str) (n c : Nat) {a b d : Why} (ha : a ≠ .crash) (hb : b ≠ .crash) (hd : d ≠ .crash) :
    forget (openInfo e path n c a b d) = Dsc.openInfo e path := by
  have f : ∀ {w : Why}, w ≠ .crash → forget (.err n c w : Res SoInfo) = .err := by intro w hw; cases w <;> first | rfl | exact absurd rfl hw
  unfold openInfo Dsc.openInfo
  cases e.fs path with
  | none => exact f ha
  | some x =>
    simp only
    by_cases hx : x.dir
    · rw [if_pos hx, if_pos hx]; exact f hb
    · rw [if_neg hx, if_neg hx]
      cases x.info with
      | none => exact f hd
      | some i => rfl

theorem forget_container (e : Env) (n : Nat) (ls : List Str) :
    (forget (readContainer e n ls) >>= fun x => (.ok (x.1, x.2.2.1) : Dsc.Res _)) = Dsc.readContainer e ls := by
  induction ls generalizing n with
  | nil => rfl
  | cons l ls ih =>
    rw [readContainer, Dsc.readContainer]
    split
    · exact ih _
    · simp only
      rw [forget_bind, forget_openInfo e _ _ _ (by simp) (by simp) (by simp)]
      cases Dsc.openInfo e (e.livepatch.getD (chomp l)) <;> rfl

theorem forget_deps (e : Env) (n : Nat) (ls : List Str) (acc : List Bytes) :
    (forget (readDeps e n ls acc) >>= fun x => (.ok (x.1, x.2.1) : Dsc.Res _)) = Dsc.readDeps e ls acc := by
  induction ls generalizing n acc with
  | nil => rfl
  | cons l ls ih =>
    rw [readDeps, Dsc.readDeps]
    split
    · have : ∀ p, Dsc.addDependency e p = .err ∨ ∃ id, Dsc.addDependency e p = .ok id := by
        intro p
        unfold Dsc.addDependency
        grind
      rcases this ((chomp l).drop 1) with h | ⟨id, h⟩
      · rw [h]; rfl
      · rw [h]; exact ih _ _
    · rfl

theorem forget_refLine (t c : SoInfo) (tp cp : Str) (n : Nat) (s : Str) : forget (refLine t c tp cp n s) = Dsc.refLine t c s := by
  unfold refLine Dsc.refLine
  generalize Dsc.tlsMark s = tm
  obtain ⟨tls, third⟩ := tm
  simp only
  cases strchr third with
  | none => rfl
  | some x =>
    obtain ⟨tname, rest⟩ := x
    simp only
    cases strchr rest with
    | none =>
      simp only
      cases getSymbol t tname with
      | none => rfl
      | some a => simp only; cases getSymbol c rest <;> rfl
    | some y =>
      obtain ⟨rname, rest⟩ := y
      simp only
      cases strchr rest <;> rfl

theorem forget_funcLine (t c : SoInfo) (tp cp : Str) (n : Nat) (s : Str) : forget (funcLine t c tp cp n s) = Dsc.funcLine t c s := by
  unfold funcLine Dsc.funcLine
  grind [forget]

theorem forget_entry (e : Env) (c : SoInfo) (cp : Str) (n : Nat) (acc : Acc × Str) (l : Str) :
    (forget (entry e c cp n acc l) >>= fun x => (.ok x.1 : Dsc.Res _)) = Dsc.entry e c acc.1 l := by
  unfold entry Dsc.entry
  by_cases h1 : l.head? = some 10 ∨ l.head? = some 33
  · rw [if_pos h1, if_pos h1]; rfl
  rw [if_neg h1, if_neg h1]
  by_cases h2 : l.head? = some 64
  · rw [if_pos h2, if_pos h2]
    by_cases h3 : acc.1.obj.isSome
    · rw [if_pos h3, if_pos h3]; rfl
    rw [if_neg h3, if_neg h3]
    simp only
    by_cases h4 : (e.target.getD ((chomp l).drop 1)).length ≥ Dsc.pathMax
    · rw [if_pos h4, if_pos h4]; rfl
    rw [if_neg h4, if_neg h4, forget_bind, forget_openInfo e _ _ _ (by simp) (by simp) (by simp)]
    cases Dsc.openInfo e (e.target.getD ((chomp l).drop 1)) <;> rfl
  rw [if_neg h2, if_neg h2]
  obtain ⟨⟨obj, units, refs⟩, tp⟩ := acc
  simp only
  cases obj with
  | none => rfl
  | some t =>
    simp only
    by_cases h5 : l.head? = some 35
    · rw [if_pos h5, if_pos h5, forget_bind, forget_refLine]
      cases Dsc.refLine t c ((chomp l).drop 1) <;> rfl
    · rw [if_neg h5, if_neg h5, forget_bind, forget_funcLine]
      cases Dsc.funcLine t c (chomp l) <;> rfl

theorem forget_entries (e : Env) (c : SoInfo) (cp : Str) (n : Nat) (ls : List Str) (acc : Acc × Str) : forget (entries e c cp n ls acc) = Dsc.entries e c ls acc.1 := by
  induction ls generalizing n acc with
  | nil => rfl
  | cons l ls ih =>
    rw [entries, Dsc.entries, forget_bind, ← forget_entry e c cp n acc l]
    cases hf : forget (entry e c cp n acc l) with
    | ok a => exact ih _ _
    | _ => rfl

/-- **C141** (always) There is a message about a description exactly if it is refused, or the NULL pointer is used while it is read. -/
theorem C141_always (e : Env) (content : Str) : forget (parseLines e (lines content)) = Dsc.parseDescription e content := by
  unfold parseLines Dsc.parseDescription
  rw [forget_bind, ← forget_container e 0]
  cases forget (readContainer e 0 (lines content)) with
  | ok x =>
    obtain ⟨c, cp, ls, n⟩ := x
    show forget (_ >>= _) = (Dsc.readDeps e ls [] >>= _)
    rw [forget_bind, ← forget_deps e n]
    cases forget (readDeps e n ls []) with
    | ok y =>
      obtain ⟨d, ls', m⟩ := y
      show forget (_ >>= _) = (Dsc.entries e c ls' ⟨none, [], []⟩ >>= _)
      rw [forget_bind, forget_entries]
      rfl
    | _ => rfl
  | _ => rfl

/-- **C141** (a reference without colon) The NULL pointer is used; the message is about that line and marks the name, but does not say what is wrong. -/
theorem C141_reference_without_colon {e : Env} {ls : List Str} {deps : List Bytes} {acc : Acc} (h : parseLines e ls = .ok (deps, acc)) (ho : acc.obj.isSome) {s : Str}
    (hs : ∀ c ∈ s, c ≠ 0 ∧ c ≠ 58) (rest : List Str) :
    parseLines e (ls ++ (35 :: s ++ [10]) :: rest) = .err (ls.length + 1) (if (Dsc.tlsMark s).1 then 3 else 2) .crash := by
  rw [parseLines_eq] at h ⊢
  obtain ⟨⟨c, cp, ls', m⟩, h1, h2⟩ := bind_ok_iff.mp h
  obtain ⟨pre, rfl, rfl, h5, -⟩ := readContainer_ok h1
  simp only at h2
  unfold later at h2
  obtain ⟨⟨d, ls'', m⟩, h3, h4⟩ := bind_ok_iff.mp h2
  obtain ⟨pre', rfl, rfl, h6, h7, h8⟩ := readDeps_ok h3
  simp only at h4
  obtain ⟨a, h9, h10⟩ := bind_ok_iff.mp h4
  cases h10
  obtain ⟨⟨acc1, tp⟩, h11, h12⟩ := entries_ok h9
  simp only at h11
  subst h11
  have hd : readDeps e (0 + pre.length) (pre' ++ (ls'' ++ (35 :: s ++ [10]) :: rest)) [] = .ok (deps, ls'' ++ (35 :: s ++ [10]) :: rest, 0 + pre.length + pre'.length) := by
    cases ls'' with
    | nil => exact h6 _ _ (by simp)
    | cons x l => exact h6 x _ (h8 x (by simp))
  rw [List.append_assoc, List.append_assoc, h5, bind_ok]
  simp only
  unfold later
  rw [hd, bind_ok]
  simp only
  rw [h12, entries, entry]
  have hch : (chomp (35 :: s ++ [10])).drop 1 = s := by
    rw [Dsc.chomp_line (by simp; exact fun h => (hs 0 h).1 rfl)]; rfl
  obtain ⟨t, ht⟩ := Option.isSome_iff_exists.mp ho
  rw [if_neg (by simp), if_neg (by simp)]
  simp only [ht]
  rw [if_pos (by simp), hch, refLine]
  have hnone : strchr (Dsc.tlsMark s).2 = none := by
    apply strchr_none_iff.mpr
    intro hm
    have := tlsMark_eq s
    exact (hs 58 (by rw [this]; exact List.mem_append_right _ hm)).2 rfl
  simp only [hnone]
  simp [Nat.add_assoc]

/-- **C140** (negation) With a NUL character in the line, more is marked than the name that is reported. -/
theorem C140_nul : ∃ (e : Env) (file content : Str), (complain e file content).map text =
    some (lit "d:3:1: error: symbol x is not present in /lib\nx\x00y:f_new\n^~~\n") :=
  ⟨Dsc.demoEnv, lit "d", lit "/lp\n@/lib\nx\x00y:f_new\n", by decide +kernel⟩

/-! ### Concrete cases -/

/-- The place and the reason of an error. -/
def placeOf {α : Type} : Res α → Option (Nat × Nat × Why)
  | .err l c w => some (l, c, w)
  | _ => none

theorem err_of {α : Type} {r : Res α} {l c : Nat} {w : Why} (h : placeOf r = some (l, c, w)) : r = .err l c w := by
  cases r <;> cases h; rfl

def isOk {α : Type} : Res α → Bool
  | .ok _ => true
  | _ => false

/-- The second function is not in the live patch. -/
def demoBad : Str := lit "!patch\n/lp\n@/lib\nf:f_new\nf:g_new\n#v:v_ref\n"

theorem demoBad_err : parseLines Dsc.demoEnv (lines demoBad) = .err 5 3 (.missing (lit "g_new") (lit "/lp")) := err_of (by decide +kernel)

example : (complain Dsc.demoEnv (lit "p.dsc") demoBad).map text = some (lit "p.dsc:5:3: error: symbol g_new is not present in /lp\nf:g_new\n  ^~~~~\n") := by decide +kernel

example := C140_message (file := lit "p.dsc") demoBad_err
example := C140_missing_partial (file := lit "p.dsc") demoBad_err (by decide +kernel) (by decide +kernel)
example := C140_expected_partial (e := Dsc.demoEnv) (file := lit "p.dsc") (content := lit "/lp\n@/lib\nf:\n") (line := 3) (col := 2) (err_of (by decide +kernel)) (by decide +kernel)
example := C140_empty (e := Dsc.demoEnv) (file := lit "p.dsc") (content := lit "!nothing\n\n") (by decide +kernel)

/-- After the second function is taken out, the description is accepted. -/
example : isOk (parseLines Dsc.demoEnv (blank (lines demoBad) 5)) = true := by decide +kernel

/-- The line after it has an error too. -/
example : parseLines Dsc.demoEnv (lines (lit "/lp\n@/lib\nf:g_new\nh:f_new\n")) = .err 3 3 (.missing (lit "g_new") (lit "/lp")) ∧
    parseLines Dsc.demoEnv (blank (lines (lit "/lp\n@/lib\nf:g_new\nh:f_new\n")) 3) = .err 4 1 (.missing (lit "h") (lit "/lib")) :=
  ⟨err_of (by decide +kernel), err_of (by decide +kernel)⟩

example : 3 < 4 := C141_blame (e := Dsc.demoEnv) (ls := lines (lit "/lp\n@/lib\nf:g_new\nh:f_new\n")) (line := 3) (col := 3) (why := .missing (lit "g_new") (lit "/lp"))
  (err_of (by decide +kernel)) (by simp) (line' := 4) (col' := 1) (why' := .missing (lit "h") (lit "/lib")) (err_of (by decide +kernel))

example := C141_prefix demoBad_err (by simp) [lit "more\n"]

example := C141_always Dsc.demoEnv demoBad

theorem demoGood_ok : ∃ d acc, parseLines Dsc.demoEnv (lines (lit "/lp\n@/lib\n")) = .ok (d, acc) ∧ acc.obj.isSome := by
  have h : (match parseLines Dsc.demoEnv (lines (lit "/lp\n@/lib\n")) with | .ok x => x.2.obj.isSome | _ => false) = true := by decide +kernel
  split at h
  · exact ⟨_, _, by assumption, h⟩
  · cases h

example : parseLines Dsc.demoEnv (lines (lit "/lp\n@/lib\n") ++ [35 :: lit "var" ++ [10]]) = .err 3 2 .crash := by
  obtain ⟨d, acc, h, h1⟩ := demoGood_ok
  rw [C141_reference_without_colon h h1 (s := lit "var") (by decide +kernel) []]
  have : (lines (lit "/lp\n@/lib\n")).length = 2 := by decide +kernel
  rw [this]
  have : (Dsc.tlsMark (lit "var")).1 = false := by decide +kernel
  rw [this]; rfl

end Verif.Diag
