import Verif.Reason.Lemmas

/-!
# C183: the log says what went wrong
-/

namespace Verif.Reason

open Verif.MsgQueue Verif.MsgQueue.Spec Spec

/-! ### The message that says where -/

theorem decimal_number {w : Nat} {v : Int} (h : Holds w v) : decimal w = number v := by
  obtain ⟨h1, h2, h3⟩ := h
  simp only [decimal, number]
  by_cases hv : v < 0
  · rw [if_neg (by omega), if_pos hv]
    congr 2; omega
  · rw [if_pos (by omega), if_neg hv]
    congr 1; omega

theorem printDec_nonzero (n : Nat) : ∀ c ∈ Text.printDec n, c ≠ 0 := by
  induction n using Nat.strongRecOn with
  | ind n ih =>
    rw [Text.printDec]
    have key : ∀ k, k < 10 → UInt8.ofNat (48 + k) ≠ 0 := by decide
    by_cases h : n < 10
    · rw [if_pos h]; intro c hc
      simp only [List.mem_singleton] at hc
      subst hc; exact key n h
    · rw [if_neg h]; intro c hc
      simp only [List.mem_append, List.mem_singleton] at hc
      rcases hc with hc | rfl
      · exact ih (n / 10) (by omega) c hc
      · exact key _ (by omega)

theorem number_nonzero (v : Int) : ∀ c ∈ number v, c ≠ 0 := by
  intro c hc
  simp only [number] at hc
  by_cases hv : v < 0
  · rw [if_pos hv] at hc
    simp only [List.mem_cons] at hc
    rcases hc with rfl | hc
    · decide
    · exact printDec_nonzero _ c hc
  · rw [if_neg hv] at hc
    exact printDec_nonzero _ c hc

theorem at_nonzero {mem : Nat → UInt8} {a : Nat} {s : Str} (h : At mem a s) : ∀ c ∈ s, c ≠ 0 := by
  intro c hc
  obtain ⟨i, hi, rfl⟩ := List.getElem_of_mem hc
  exact (h.1 i hi).2

/-- A place as the words that a function of lib/error.c is given. -/
structure Given (mem : Nat → UInt8) (file func line code : Nat) (p : Where) : Prop where
  file : At mem file p.file
  func : At mem func p.func
  line : Holds line p.line
  code : Holds code p.code

theorem errx_first {mem : Nat → UInt8} {file func line code : Nat} {p : Where} (g : Given mem file func line code p) :
    ∃ ps, pieces errxFmt = some ps ∧ Prints mem ps (named [file, func, line, code]) (errxText p) := by
  refine ⟨(lit "In file = ").map .byte ++ .str :: ((lit ", function = ").map .byte ++ .str :: ((lit ", line = ").map .byte ++
    .dec :: ((lit ": errx : ").map .byte ++ .dec :: (lit " ;; ").map .byte))), by decide +kernel, ?_⟩
  exact prints_bytes _ (Prints.str g.file (prints_bytes _ (Prints.str g.func (prints_bytes _
    (decimal_number g.line ▸ Prints.dec (prints_bytes _ (decimal_number g.code ▸ Prints.dec (prints_plain _ _ _))))))))

theorem reason_first {mem : Nat → UInt8} {file func line code : Nat} {p : Where} (g : Given mem file func line code p) :
    ∃ ps, pieces reasonFmt = some ps ∧ Prints mem ps (named [file, func, line, code]) (reasonText p) := by
  refine ⟨(lit "In file = ").map .byte ++ .str :: ((lit ", function = ").map .byte ++ .str :: ((lit ", line = ").map .byte ++
    .dec :: ((lit ", error state ").map .byte ++ .dec :: (lit ": ").map .byte))), by decide +kernel, ?_⟩
  exact prints_bytes _ (Prints.str g.file (prints_bytes _ (Prints.str g.func (prints_bytes _
    (decimal_number g.line ▸ Prints.dec (prints_bytes _ (decimal_number g.code ▸ Prints.dec (prints_plain _ _ _))))))))

theorem where_nonzero {mem : Nat → UInt8} {file func line code : Nat} {p : Where} (g : Given mem file func line code p) :
    (∀ c ∈ errxText p, c ≠ 0) ∧ (∀ c ∈ reasonText p, c ≠ 0) := by
  have k1 := at_nonzero g.file
  have k2 := at_nonzero g.func
  have k3 := number_nonzero p.line
  have k4 := number_nonzero p.code
  have e : ∀ s ∈ ["In file = ", ", function = ", ", line = ", ": errx : ", " ;; ", ", error state ", ": "],
    ∀ c ∈ s.toUTF8.toList, c ≠ 0 := by decide +kernel
  constructor
  · intro c hc
    simp only [errxText, List.mem_append] at hc
    rcases hc with h | h | h | h | h | h | h | h | h
    · exact e _ (by simp) c h
    · exact k1 c h
    · exact e _ (by simp) c h
    · exact k2 c h
    · exact e _ (by simp) c h
    · exact k3 c h
    · exact e _ (by simp) c h
    · exact k4 c h
    · exact e _ (by simp) c h
  · intro c hc
    simp only [reasonText, List.mem_append] at hc
    rcases hc with h | h | h | h | h | h | h | h | h
    · exact e _ (by simp) c h
    · exact k1 c h
    · exact e _ (by simp) c h
    · exact k2 c h
    · exact e _ (by simp) c h
    · exact k3 c h
    · exact e _ (by simp) c h
    · exact k4 c h
    · exact e _ (by simp) c h

theorem first_ne (p : Where) : errxText p ≠ [] ∧ reasonText p ≠ [] := by
  have : ("In file = ".toUTF8.toList : Str) ≠ [] := by decide +kernel
  constructor
  · intro h; simp only [errxText, List.append_eq_nil_iff] at h; exact this h.1
  · intro h; simp only [reasonText, List.append_eq_nil_iff] at h; exact this h.1

/-! ### Two messages -/

/-- What is known of the log before. -/
structure Before (N fuel : Nat) (q : MsgQ) (ms : List Str) : Prop where
  small : N ≤ 2 ^ 30
  enough : 0 < fuel
  log : pushAll N fuel init ms = .ok q
  texts : ∀ m ∈ ms, m ≠ [] ∧ ∀ b ∈ m, b ≠ 0

theorem two_messages {N fuel : Nat} {q : MsgQ} {ms : List Str} (h : Before N fuel q ms) {a b : Str}
    (ha : a ≠ [] ∧ ∀ c ∈ a, c ≠ 0) (hb : b ≠ [] ∧ ∀ c ∈ b, c ≠ 0) (hfit : footprint (ms ++ [a, b]) < N) :
    ∃ q1 q2, push N fuel q a = .ok q1 ∧ push N fuel q1 b = .ok q2 ∧ records (printed N q2) = ms ++ [a, b] := by
  obtain ⟨q2, e, r⟩ := C03_nothing_dropped_while_room N fuel h.small h.enough (ms ++ [a, b]) (by
    intro m hm
    simp only [List.mem_append, List.mem_cons, List.not_mem_nil, or_false] at hm
    rcases hm with hm | rfl | rfl
    · exact h.texts m hm
    · exact ha
    · exact hb) hfit
  rw [pushAll_append ms [a, b] init q h.log] at e
  simp only [pushAll] at e
  cases hp : push N fuel q a with
  | outOfBounds => simp [hp] at e
  | running => simp [hp] at e
  | ok q1 =>
    simp only [hp] at e
    cases hp2 : push N fuel q1 b with
    | outOfBounds => simp [hp2] at e
    | running => simp [hp2] at e
    | ok q3 =>
      simp only [hp2, Outcome.ok.injEq] at e
      subst e
      exact ⟨q1, q3, rfl, hp2, r⟩

/-- Everything about a call of `libpulp_errx` whose second message is `m`. -/
theorem errx_logs {N fuel : Nat} {c : Ctx} {q : MsgQ} {ms : List Str} {file func line eval : Nat} {p : Where} {fmt : Str}
    {ps : List Piece} {m : Str} (h : Before N fuel q ms) (g : Given c.mem file func line eval p)
    (hf : pieces fmt = some ps) (hm : Prints c.mem ps c.mistaken m) (hm0 : m ≠ [] ∧ ∀ x ∈ m, x ≠ 0)
    (hfit : footprint (ms ++ [errxText p, m]) < N) :
    (∃ r, Errx N fuel c q file func line eval fmt r) ∧
    ∀ r, Errx N fuel c q file func line eval fmt r →
      r.state = EUNKNOWN ∧ records (printed N r.q) = ms ++ [errxText p, m] := by
  obtain ⟨ps1, f1, t1⟩ := errx_first g
  obtain ⟨q1, q2, k1, k2, k3⟩ := two_messages h ⟨(first_ne p).1, (where_nonzero g).1⟩ hm0 hfit
  refine ⟨⟨⟨q2, EUNKNOWN, errxText p, m⟩, q1, ps1, ps, ⟨f1, t1, k1⟩, ⟨hf, hm, k2⟩, rfl⟩, ?_⟩
  rintro r ⟨q1', ps1', ps2', ⟨a1, a2, a3⟩, ⟨b1, b2, b3⟩, e⟩
  rw [f1, Option.some.injEq] at a1
  rw [hf, Option.some.injEq] at b1
  subst a1 b1
  rw [prints_unique a2 t1, k1, Outcome.ok.injEq] at a3
  subst a3
  rw [prints_unique b2 hm, k2, Outcome.ok.injEq] at b3
  exact ⟨e, by rw [← b3]; exact k3⟩

theorem reason_logs {N fuel : Nat} {c : Ctx} {q : MsgQ} {ms : List Str} {file func line state : Nat} {p : Where} {fmt : Str}
    {ps : List Piece} {m : Str} (h : Before N fuel q ms) (g : Given c.mem file func line state p)
    (hf : pieces fmt = some ps) (hm : Prints c.mem ps c.mistaken m) (hm0 : m ≠ [] ∧ ∀ x ∈ m, x ≠ 0)
    (hfit : footprint (ms ++ [reasonText p, m]) < N) :
    (∃ r, Reasoned N fuel c q file func line state fmt r) ∧
    ∀ r, Reasoned N fuel c q file func line state fmt r →
      r.state = state ∧ records (printed N r.q) = ms ++ [reasonText p, m] := by
  obtain ⟨ps1, f1, t1⟩ := reason_first g
  obtain ⟨q1, q2, k1, k2, k3⟩ := two_messages h ⟨(first_ne p).2, (where_nonzero g).2⟩ hm0 hfit
  refine ⟨⟨⟨q2, state, reasonText p, m⟩, q1, ps1, ps, ⟨f1, t1, k1⟩, ⟨hf, hm, k2⟩, rfl⟩, ?_⟩
  rintro r ⟨q1', ps1', ps2', ⟨a1, a2, a3⟩, ⟨b1, b2, b3⟩, e⟩
  rw [f1, Option.some.injEq] at a1
  rw [hf, Option.some.injEq] at b1
  subst a1 b1
  rw [prints_unique a2 t1, k1, Outcome.ok.injEq] at a3
  subst a3
  rw [prints_unique b2 hm, k2, Outcome.ok.injEq] at b3
  exact ⟨e, by rw [← b3]; exact k3⟩

/-! ### C183 -/

/-- **C183 (partial).**  `libpulp_errx` with a text without conversions, which all but one of its calls have: it always comes
to its end, live patching is off, and the log shows where it was called and the text. -/
theorem C183_errx_partial (N fuel : Nat) (c : Ctx) (q : MsgQ) (ms : List Str) (file func line eval : Nat) (p : Where)
    (fmt : Str) (h : Before N fuel q ms) (g : Given c.mem file func line eval p) (hp : Plain fmt)
    (hm : fmt ≠ [] ∧ ∀ x ∈ fmt, x ≠ 0) (hfit : footprint (ms ++ [errxText p, fmt]) < N) :
    (∃ r, Errx N fuel c q file func line eval fmt r) ∧
    ∀ r, Errx N fuel c q file func line eval fmt r →
      r.state = EUNKNOWN ∧ records (printed N r.q) = ms ++ [errxText p, fmt] :=
  errx_logs h g (pieces_plain hp) (prints_plain _ _ _) hm hfit

/-- **C183 (partial).**  `set_libpulp_error_state_with_reason` with a text without conversions, which all its calls have: the
log shows where it was called and the reason, and the error state is the one given. -/
theorem C183_reason_partial (N fuel : Nat) (c : Ctx) (q : MsgQ) (ms : List Str) (file func line state : Nat) (p : Where)
    (fmt : Str) (h : Before N fuel q ms) (g : Given c.mem file func line state p) (hp : Plain fmt)
    (hm : fmt ≠ [] ∧ ∀ x ∈ fmt, x ≠ 0) (hfit : footprint (ms ++ [reasonText p, fmt]) < N) :
    (∃ r, Reasoned N fuel c q file func line state fmt r) ∧
    ∀ r, Reasoned N fuel c q file func line state fmt r →
      r.state = state ∧ records (printed N r.q) = ms ++ [reasonText p, fmt] :=
  reason_logs h g (pieces_plain hp) (prints_plain _ _ _) hm hfit

/-- **C183 is false.**  A text with `%s`, as lib/symbol_loader.c:203 has: on x86-64, whatever string is given, the log shows an
opening parenthesis in its place. -/
theorem C183_string_lost (N fuel : Nat) (c : Ctx) (hs : Started .x86_64 c) (q : MsgQ) (ms : List Str)
    (file func line eval : Nat) (p : Where) (pre post : Str) (h : Before N fuel q ms)
    (g : Given c.mem file func line eval p) (h1 : Plain pre) (h2 : Plain post)
    (h3 : ∀ x ∈ pre, x ≠ 0) (h4 : ∀ x ∈ post, x ≠ 0) (hfit : footprint (ms ++ [errxText p, pre ++ [40] ++ post]) < N) :
    (∃ r, Errx N fuel c q file func line eval (oneString pre post) r) ∧
    ∀ r, Errx N fuel c q file func line eval (oneString pre post) r →
      r.state = EUNKNOWN ∧ records (printed N r.q) = ms ++ [errxText p, pre ++ [40] ++ post] :=
  errx_logs h g (pieces_one h1 h2) (prints_one _ _ _ (at_va hs))
    ⟨by simp, by
      intro x hx
      simp only [List.mem_append, List.mem_singleton] at hx
      rcases hx with (hx | rfl) | hx
      · exact h3 x hx
      · decide
      · exact h4 x hx⟩ hfit

/-- **C183 is false.**  On POWER the log shows the bytes of the address of the string instead, up to the first one that is
zero. -/
theorem C183_address_shown (N fuel : Nat) (c : Ctx) (hs : Started .powerpc64le c) (q : MsgQ) (ms : List Str)
    (file func line eval : Nat) (p : Where) (pre post : Str) (h : Before N fuel q ms)
    (g : Given c.mem file func line eval p) (h1 : Plain pre) (h2 : Plain post)
    (h3 : ∀ x ∈ pre, x ≠ 0) (h4 : ∀ x ∈ post, x ≠ 0) (n : Nat) (hn : n < 8)
    (hb : ∀ x ∈ bytesOf (c.args 0) n, x ≠ 0) (hz : UInt8.ofNat (c.args 0 / 2 ^ (8 * n)) = 0)
    (hne : pre ++ bytesOf (c.args 0) n ++ post ≠ [])
    (hfit : footprint (ms ++ [errxText p, pre ++ bytesOf (c.args 0) n ++ post]) < N) :
    (∃ r, Errx N fuel c q file func line eval (oneString pre post) r) ∧
    ∀ r, Errx N fuel c q file func line eval (oneString pre post) r →
      r.state = EUNKNOWN ∧ records (printed N r.q) = ms ++ [errxText p, pre ++ bytesOf (c.args 0) n ++ post] := by
  have hat : At c.mem (c.mistaken 0) (bytesOf (c.args 0) n) := by
    have hl : (bytesOf (c.args 0) n).length = n := by simp [bytesOf]
    have hs0 := fun j hj => hs 0 j hj
    simp only [Nat.mul_zero, Nat.add_zero] at hs0
    refine ⟨?_, by rw [hl]; exact (hs0 n hn).trans hz⟩
    intro i hi
    rw [hl] at hi
    refine ⟨by rw [show c.mistaken 0 = c.va from rfl, hs0 i (by omega)]; simp [bytesOf], hb _ (List.getElem_mem _)⟩
  exact errx_logs h g (pieces_one h1 h2) (prints_one _ _ _ hat)
    ⟨hne, by
      intro x hx
      simp only [List.mem_append] at hx
      rcases hx with (hx | hx) | hx
      · exact h3 x hx
      · exact hb x hx
      · exact h4 x hx⟩ hfit

/-- **C183.**  What is logged by `WARN` and `DEBUG` shows its arguments, and leaves the error state alone. -/
theorem C183_warn (N fuel : Nat) (c : Ctx) (q : MsgQ) (ms : List Str) (state : Err) (stamp fmt : Str) (ps : List Piece)
    (m : Str) (h : Before N fuel q ms) (hs : stamp ≠ [] ∧ ∀ x ∈ stamp, x ≠ 0) (hf : pieces fmt = some ps)
    (ht : Prints c.mem ps c.args m) (hm : m ≠ [] ∧ ∀ x ∈ m, x ≠ 0) (hfit : footprint (ms ++ [stamp, m]) < N) :
    (∃ r, Warned N fuel c q state stamp fmt r) ∧
    ∀ r, Warned N fuel c q state stamp fmt r → r.state = state ∧ records (printed N r.q) = ms ++ [stamp, m] := by
  obtain ⟨q1, q2, k1, k2, k3⟩ := two_messages h hs hm hfit
  refine ⟨⟨⟨q2, state, stamp, m⟩, q1, ps, by rw [if_neg hs.1]; exact k1, rfl, ⟨hf, ht, k2⟩, rfl⟩, ?_⟩
  rintro r ⟨q1', ps', a, _, ⟨b1, b2, b3⟩, e⟩
  rw [if_neg hs.1, k1, Outcome.ok.injEq] at a
  subst a
  rw [hf, Option.some.injEq] at b1
  subst b1
  rw [prints_unique b2 ht, k2, Outcome.ok.injEq] at b3
  exact ⟨e, by rw [← b3]; exact k3⟩

/-! ### Cases -/

/-- A memory: "symbol_loader.c" is at 1000, "dl_find_symbol" at 1100, "libfoo.so" at 0x7b7c7d, and a `va_list` at 0x800000. -/
def demoMem (words : Nat → UInt8) (a : Nat) : UInt8 :=
  if 1000 ≤ a ∧ a < 1015 then (lit "symbol_loader.c").getD (a - 1000) 0
  else if 1100 ≤ a ∧ a < 1114 then (lit "dl_find_symbol").getD (a - 1100) 0
  else if 0x7b7c7d ≤ a ∧ a < 0x7b7c7d + 9 then (lit "libfoo.so").getD (a - 0x7b7c7d) 0
  else if 0x800000 ≤ a then words (a - 0x800000) else 0

/-- The call of lib/symbol_loader.c:203 on x86-64. -/
def demoX86 : Ctx :=
  ⟨demoMem fun j => if j = 0 then 40 else if j = 4 then 48 else 0, 0x800000, fun k => if k = 0 then 0x7b7c7d else 0, fun _ => 0⟩

/-- The same on POWER. -/
def demoPower : Ctx :=
  ⟨demoMem fun j => if j = 0 then 0x7d else if j = 1 then 0x7c else if j = 2 then 0x7b else 0, 0x800000,
    fun k => if k = 0 then 0x7b7c7d else 0, fun _ => 0⟩

def demoWhere : Where := ⟨lit "symbol_loader.c", lit "dl_find_symbol", 203, 1⟩

theorem demo_given (words : Nat → UInt8) : Given (demoMem words) 1000 1100 203 1 demoWhere := by
  have k1 : ∀ i, i < 15 → (lit "symbol_loader.c").getD i 0 ≠ 0 := by decide +kernel
  have k2 : ∀ i, i < 14 → (lit "dl_find_symbol").getD i 0 ≠ 0 := by decide +kernel
  have l1 : (lit "symbol_loader.c").length = 15 := by decide +kernel
  have l2 : (lit "dl_find_symbol").length = 14 := by decide +kernel
  refine ⟨⟨?_, ?_⟩, ⟨?_, ?_⟩, by unfold Holds; decide, by unfold Holds; decide⟩
  · intro i hi
    rw [show demoWhere.file = lit "symbol_loader.c" from rfl, l1] at hi
    have e : demoWhere.file[i]'(by rw [show demoWhere.file = lit "symbol_loader.c" from rfl, l1]; exact hi) =
      (lit "symbol_loader.c").getD i 0 := by simp [demoWhere, List.getD, l1, hi]
    rw [e]
    refine ⟨?_, k1 i hi⟩
    simp only [demoMem]
    rw [if_pos (by omega), Nat.add_sub_cancel_left]
  · rw [show demoWhere.file = lit "symbol_loader.c" from rfl, l1]; simp [demoMem]
  · intro i hi
    rw [show demoWhere.func = lit "dl_find_symbol" from rfl, l2] at hi
    have e : demoWhere.func[i]'(by rw [show demoWhere.func = lit "dl_find_symbol" from rfl, l2]; exact hi) =
      (lit "dl_find_symbol").getD i 0 := by simp [demoWhere, List.getD, l2, hi]
    rw [e]
    refine ⟨?_, k2 i hi⟩
    simp only [demoMem]
    rw [if_neg (by omega), if_pos (by omega), Nat.add_sub_cancel_left]
  · rw [show demoWhere.func = lit "dl_find_symbol" from rfl, l2]; simp [demoMem]

theorem demoX86_given : Given demoX86.mem 1000 1100 203 1 demoWhere := by
  simp only [demoX86]; exact demo_given _

theorem demoPower_given : Given demoPower.mem 1000 1100 203 1 demoWhere := by
  simp only [demoPower]; exact demo_given _

theorem demo_before : Before ringSize 1 init [] := ⟨by decide, by decide, rfl, by simp⟩

/-- C183: "dl_phdr_info size is unexpected" is shown. -/
example : ∃ r, Errx ringSize 1 demoX86 init 1000 1100 203 1 (lit "dl_phdr_info size is unexpected") r ∧
    r.state = EUNKNOWN ∧
    records (printed ringSize r.q) = [errxText demoWhere, lit "dl_phdr_info size is unexpected"] := by
  obtain ⟨⟨r, h⟩, k⟩ := C183_errx_partial ringSize 1 demoX86 init [] 1000 1100 203 1 demoWhere
    (lit "dl_phdr_info size is unexpected") demo_before demoX86_given (by unfold Plain; decide +kernel) (by decide +kernel)
    (by decide +kernel)
  exact ⟨r, h, k r h⟩

/-- C183: a reason is shown. -/
example : ∃ r, Reasoned ringSize 1 demoX86 init 1000 1100 203 1 (lit "unable to find function `free`.") r ∧
    records (printed ringSize r.q) = [reasonText demoWhere, lit "unable to find function `free`."] := by
  obtain ⟨⟨r, h⟩, k⟩ := C183_reason_partial ringSize 1 demoX86 init [] 1000 1100 203 1 demoWhere
    (lit "unable to find function `free`.") demo_before demoX86_given (by unfold Plain; decide +kernel) (by decide +kernel)
    (by decide +kernel)
  exact ⟨r, h, (k r h).2⟩

/-- C183: the library whose DT_SYMENT is wrong is named "(" on x86-64 -/
example : oneString (lit "DT_SYMENT value of ") (lit " is unexpected") = lit "DT_SYMENT value of %s is unexpected" ∧
    ∃ r, Errx ringSize 1 demoX86 init 1000 1100 203 1 (lit "DT_SYMENT value of %s is unexpected") r ∧
    records (printed ringSize r.q) = [errxText demoWhere, lit "DT_SYMENT value of ( is unexpected"] := by
  have e1 : oneString (lit "DT_SYMENT value of ") (lit " is unexpected") = lit "DT_SYMENT value of %s is unexpected" := by
    decide +kernel
  have e2 : lit "DT_SYMENT value of " ++ [40] ++ lit " is unexpected" = lit "DT_SYMENT value of ( is unexpected" := by
    decide +kernel
  refine ⟨e1, ?_⟩
  obtain ⟨⟨r, h⟩, k⟩ := C183_string_lost ringSize 1 demoX86 (by unfold Started; decide +kernel) init [] 1000 1100 203 1 demoWhere
    (lit "DT_SYMENT value of ") (lit " is unexpected") demo_before demoX86_given (by unfold Plain; decide +kernel)
    (by unfold Plain; decide +kernel) (by decide +kernel) (by decide +kernel) (by decide +kernel)
  rw [e1] at h k
  rw [e2] at k
  exact ⟨r, h, (k r h).2⟩

/-- and by three bytes of an address on POWER. -/
example : ∃ r, Errx ringSize 1 demoPower init 1000 1100 203 1
      (oneString (lit "DT_SYMENT value of ") (lit " is unexpected")) r ∧
    records (printed ringSize r.q) = [errxText demoWhere, lit "DT_SYMENT value of }|{ is unexpected"] := by
  have e2 : lit "DT_SYMENT value of " ++ bytesOf (demoPower.args 0) 3 ++ lit " is unexpected" =
    lit "DT_SYMENT value of }|{ is unexpected" := by decide +kernel
  have hs : Started .powerpc64le demoPower := by
    intro k j hj
    have h0 : demoPower.mem (demoPower.va + 8 * k + j) =
      if 8 * k + j = 0 then 0x7d else if 8 * k + j = 1 then 0x7c else if 8 * k + j = 2 then 0x7b else 0 := by
      simp only [demoPower, demoMem]
      rw [if_neg (by omega), if_neg (by omega), if_neg (by omega), if_pos (by omega),
        show 0x800000 + 8 * k + j - 0x800000 = 8 * k + j by omega]
    rw [h0]
    by_cases hk : k = 0
    · subst hk
      have : ∀ j, j < 8 → (if 8 * 0 + j = 0 then (0x7d : UInt8) else if 8 * 0 + j = 1 then 0x7c else if 8 * 0 + j = 2 then
        0x7b else 0) = UInt8.ofNat (demoPower.args 0 / 2 ^ (8 * j)) := by decide +kernel
      exact this j hj
    · rw [if_neg (by omega), if_neg (by omega), if_neg (by omega)]
      simp [demoPower, hk]
  obtain ⟨⟨r, h⟩, k⟩ := C183_address_shown ringSize 1 demoPower hs init [] 1000 1100 203 1 demoWhere
    (lit "DT_SYMENT value of ") (lit " is unexpected") demo_before demoPower_given (by unfold Plain; decide +kernel)
    (by unfold Plain; decide +kernel) (by decide +kernel) (by decide +kernel) 3 (by decide) (by decide +kernel)
    (by decide +kernel) (by decide +kernel) (by decide +kernel)
  rw [e2] at k
  exact ⟨r, h, (k r h).2⟩

/-- C183: a warning shows the name that it is given. -/
example : ∃ r, Warned ringSize 1 demoX86 init 0 (lit "[2026-01-01 00:00:00] ") (lit "no %s here") r ∧
    records (printed ringSize r.q) = [lit "[2026-01-01 00:00:00] ", lit "no libfoo.so here"] := by
  have e : pieces (lit "no %s here") = some ((lit "no ").map .byte ++ .str :: (lit " here").map .byte) := by decide +kernel
  have hat : At demoX86.mem (demoX86.args 0) (lit "libfoo.so") := by
    have l : (lit "libfoo.so").length = 9 := by decide +kernel
    have kz : ∀ i, i < 9 → (lit "libfoo.so").getD i 0 ≠ 0 := by decide +kernel
    refine ⟨?_, by rw [l]; decide +kernel⟩
    intro i hi
    rw [show (lit "libfoo.so")[i] = (lit "libfoo.so").getD i 0 by simp [List.getD, hi]]
    rw [l] at hi
    have : ∀ i, i < 9 → demoX86.mem (demoX86.args 0 + i) = (lit "libfoo.so").getD i 0 := by decide +kernel
    exact ⟨this i hi, kz i hi⟩
  have ht := prints_one demoX86.mem (lit "no ") (lit " here") hat
  have e2 : lit "no " ++ lit "libfoo.so" ++ lit " here" = lit "no libfoo.so here" := by decide +kernel
  rw [e2] at ht
  obtain ⟨⟨r, h⟩, k⟩ := C183_warn ringSize 1 demoX86 init [] 0 (lit "[2026-01-01 00:00:00] ") (lit "no %s here") _ _ demo_before
    (by decide +kernel) e ht (by decide +kernel) (by decide +kernel)
  exact ⟨r, h, (k r h).2⟩

end Verif.Reason
