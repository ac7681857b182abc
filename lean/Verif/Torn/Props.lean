import Verif.Torn.Lemmas

namespace Verif.Torn

/-! ### C209: x86-64 -/

section

open X86.Spec (callDest body)

theorem change_enable {stop : Nat → Nat → Option Nat} (hs : Aligned 2 stop) {m : Mem} {e : Bool} {f : Nat} (g : Nat)
    (hp : X86.patchable m f = true) (he : X86.hasEndbr m f = e) :
    ∃ k, 2 ∣ k ∧ k ≤ 16 + X86.bias e ∧ changeX86 stop m f g true = m.store (f - 14) ((X86.prologue e g).take k) := by
  obtain ⟨k, hk, hk2, h⟩ := execute_one (by decide) hs (X86.prologue e g) (prologue_dvd e g) 0 (f - 14) m
  refine ⟨k, hk, by rwa [X86.prologue_length] at hk2, ?_⟩
  rw [changeX86, X86.patchAddr_ok hp he]
  exact h

theorem change_disable {stop : Nat → Nat → Option Nat} (hs : Aligned 2 stop) {m : Mem} {e : Bool} {f : Nat} (g : Nat)
    (hp : X86.patchable m f = true) (he : X86.hasEndbr m f = e) :
    changeX86 stop m f g false = m ∨ changeX86 stop m f g false = m.store (f + X86.bias e) [0x66, 0x90] := by
  obtain ⟨k, hk, hk2, h⟩ := execute_one (by decide) hs [0x66, 0x90] (by decide) 0 (f + X86.bias e) m
  have hr : changeX86 stop m f g false = m.store (f + X86.bias e) (([0x66, 0x90] : List UInt8).take k) := by
    rw [changeX86, X86.patchAddr_ok hp he]
    exact h
  simp only [List.length_cons, List.length_nil] at hk2
  rcases (by omega : k = 0 ∨ k = 2) with rfl | rfl
  · left; rw [hr]; simp [store_nil]
  · right; rw [hr]; rfl

theorem never_aligned (d : Nat) : Aligned d never := by intro w i j h; simp [never] at h

theorem whole_aligned {stop} (h : Whole stop) (d : Nat) : Aligned d stop := by
  intro w i j hj; rw [h w i j hj]; exact Nat.dvd_zero _

/-- The function once patched. -/
theorem patched {m : Mem} {f g : Nat} (hp : PlainX86 m f) :
    X86.Redirected (changeX86 never m f g true) (X86.hasEndbr m f) f g := by
  have hpl := plain_iff hp
  have : changeX86 never m f g true = m.store (f - 14) (X86.prologue (X86.hasEndbr m f) g) := by
    rw [changeX86, X86.patchAddr_ok (X86.plain_patchable hpl) rfl]
    have := Ptrace.C09_write_exact (never 0) (X86.prologue (X86.hasEndbr m f) g) (f - 14) m
    have h0 := (Ptrace.C09_failure_reported (never 0) (X86.prologue (X86.hasEndbr m f) g) (f - 14) m).mpr (fun _ _ => rfl)
    simp only [if_true, execute]
    rw [show Ptrace.writeBytesPtrace (never 0) (X86.prologue (X86.hasEndbr m f) g) (f - 14) m
      = (m.store (f - 14) (X86.prologue (X86.hasEndbr m f) g), 0) from Prod.ext (this.1 h0) h0]
  rw [this]
  exact X86.redirected_store _ _ _ _

theorem outX86 {m : Mem} {f g : Nat} (h : OutX86 m f g) :
    g < 2 ^ 64 ∧ (g < f - 14 ∨ f + X86.bias (X86.hasEndbr m f) + 2 ≤ g) := by
  unfold OutX86 at h; rwa [X86.body_eq] at h

/-- **C209** A function that is not patched is being patched, and the tool ends at any request: a call of the function
goes to its own body or to the replacement. -/
theorem C209_first_partial {stop : Nat → Nat → Option Nat} (hs : Aligned 2 stop) (m : Mem) (f g : Nat) (hf : 14 ≤ f)
    (hf2 : f + 6 < 2 ^ 64) (hp : PlainX86 m f) (hg : OutX86 m f g) :
    callDest (changeX86 stop m f g true) f = some (body m f) ∨ callDest (changeX86 stop m f g true) f = some g := by
  have hpl := plain_iff hp
  obtain ⟨k, hk, hk2, e⟩ := change_enable hs g (X86.plain_patchable hpl) rfl
  rw [e]
  by_cases hall : k = 16 + X86.bias (X86.hasEndbr m f)
  · right
    rw [List.take_of_length_le (by rw [X86.prologue_length]; omega)]
    exact X86.callDest_redirected hf hf2 (outX86 hg).1 (outX86 hg).2 (X86.redirected_store _ _ _ _)
  · left
    have hlen : ((X86.prologue (X86.hasEndbr m f) g).take k).length = k := by
      rw [List.length_take, X86.prologue_length]; omega
    rw [X86.body_eq]
    refine X86.callDest_plain hf hf2 (X86.plain_congr ?_ hpl)
    intro i h1 h2
    by_cases hi : i < f - 14 + k
    · -- only `endbr64` has been written over itself
      cases hb : X86.hasEndbr m f with
      | false =>
        rw [hb] at hall hk2
        have : X86.bias false = 0 := rfl
        omega
      | true =>
        rw [hb] at hall hk2
        have hbias : X86.bias true = 4 := rfl
        have hm : m.load f 4 = X86.endbr64 := hpl.1 hb
        obtain ⟨j, rfl⟩ : ∃ j, i = f + j := ⟨i - f, by omega⟩
        have hj : j < 4 := by omega
        have hgl : j < (m.load f 4).length := by simpa using hj
        rw [← load_getElem m f 4 j hgl]
        rw [show f + j = f - 14 + (14 + j) by omega, store_in (by rw [List.length_take, X86.prologue_length, hbias]; omega),
          List.getElem_take]
        simp only [hm]
        have hj4 : j = 0 ∨ j = 1 ∨ j = 2 ∨ j = 3 := by omega
        rcases hj4 with rfl | rfl | rfl | rfl <;> rfl
    · rw [store_out (by omega)]

/-- **C209** A replacement is being taken back, and the tool ends at any request: a call of the function goes to the
replacement or to the function's own body. -/
theorem C209_back_partial {stop : Nat → Nat → Option Nat} (hs : Aligned 2 stop) (m : Mem) (f g x : Nat) (hf : 14 ≤ f)
    (hf2 : f + 6 < 2 ^ 64) (hp : PlainX86 m f) (hg : OutX86 m f g) :
    let m' := changeX86 stop (changeX86 never m f g true) f x false
    callDest m' f = some g ∨ callDest m' f = some (body m f) := by
  intro m'
  have hr := patched (g := g) hp
  have he := X86.redirected_endbr hf hr
  rcases change_disable hs x (X86.redirected_patchable hf hr) he with e | e
  · left
    simp only [m', e]
    exact X86.callDest_redirected hf hf2 (outX86 hg).1 (outX86 hg).2 hr
  · right
    simp only [m', e]
    rw [X86.body_eq]
    exact X86.callDest_plain hf hf2 (X86.plain_store (X86.redirected_parts hf hr).2.2.1)

theorem execute_never (w a : Nat) (bs : List UInt8) (m : Mem) : execute never w [(a, bs)] m = m.store a bs := by
  have h0 := (Ptrace.C09_failure_reported (never w) bs a m).mpr (fun _ _ => rfl)
  rw [execute, show Ptrace.writeBytesPtrace (never w) bs a m = (m.store a bs, 0) from
    Prod.ext ((Ptrace.C09_write_exact (never w) bs a m).1 h0) h0]
  rfl

/-- **C209** If the tool gets to its end, calls go where they should: to the replacement, to the newer one, to the
function's own body. -/
theorem C209_done (m : Mem) (f g g0 x : Nat) (hf : 14 ≤ f) (hf2 : f + 6 < 2 ^ 64) (hp : PlainX86 m f) (hg : OutX86 m f g)
    (hg0 : OutX86 m f g0) :
    let m0 := changeX86 never m f g0 true
    callDest m0 f = some g0 ∧ callDest (changeX86 never m0 f g true) f = some g ∧
      callDest (changeX86 never m0 f x false) f = some (body m f) := by
  have hr := patched (g := g0) hp
  have he := X86.redirected_endbr hf hr
  have hpa := X86.redirected_patchable hf hr
  refine ⟨X86.callDest_redirected hf hf2 (outX86 hg0).1 (outX86 hg0).2 hr, ?_, ?_⟩
  · have e : changeX86 never (changeX86 never m f g0 true) f g true
        = (changeX86 never m f g0 true).store (f - 14) (X86.prologue (X86.hasEndbr m f) g) := by
      rw [changeX86, X86.patchAddr_ok hpa he]
      exact execute_never _ _ _ _
    rw [e]
    exact X86.callDest_redirected hf hf2 (outX86 hg).1 (outX86 hg).2 (X86.redirected_store _ _ _ _)
  · have e : changeX86 never (changeX86 never m f g0 true) f x false
        = (changeX86 never m f g0 true).store (f + X86.bias (X86.hasEndbr m f)) [0x66, 0x90] := by
      rw [changeX86, X86.patchAddr_ok hpa he]
      exact execute_never _ _ _ _
    rw [e, X86.body_eq]
    exact X86.callDest_plain hf hf2 (X86.plain_store (X86.redirected_parts hf hr).2.2.1)

/-- A function is patched anew: where calls go. -/
theorem again {stop : Nat → Nat → Option Nat} (hs : Aligned 2 stop) (m : Mem) (f g g0 : Nat) (hf : 14 ≤ f)
    (hf2 : f + 6 < 2 ^ 64) (hp : PlainX86 m f) (hg : g < 2 ^ 64) (hg0 : g0 < 2 ^ 64)
    (ho : ∀ j, 2 ∣ j → OutX86 m f (mix j g g0)) :
    ∃ j, 2 ∣ j ∧ callDest (changeX86 stop (changeX86 never m f g0 true) f g true) f = some (mix j g g0) := by
  have hr := patched (g := g0) hp
  have he := X86.redirected_endbr hf hr
  obtain ⟨k, hk, hk2, e⟩ := change_enable hs g (X86.redirected_patchable hf hr) he
  have hj : 2 ∣ k - 6 := by omega
  refine ⟨k - 6, hj, ?_⟩
  rw [e]
  exact X86.callDest_redirected hf hf2 (mix_lt _ _ _ hg hg0) (outX86 (ho _ hj)).2 (redirected_cut hr k)

/-- **C209** A patched function is patched anew, the tool ends at any request, and the old and the new replacement are in
the same aligned 64 KiB: a call of the function goes to the old or to the new one. -/
theorem C209_near_partial {stop : Nat → Nat → Option Nat} (hs : Aligned 2 stop) (m : Mem) (f g g0 : Nat) (hf : 14 ≤ f)
    (hf2 : f + 6 < 2 ^ 64) (hp : PlainX86 m f) (hg : OutX86 m f g) (hg0 : OutX86 m f g0) (hn : g / 2 ^ 16 = g0 / 2 ^ 16) :
    let m' := changeX86 stop (changeX86 never m f g0 true) f g true
    callDest m' f = some g0 ∨ callDest m' f = some g := by
  intro m'
  have key : ∀ j, 2 ∣ j → mix j g g0 = g0 ∨ mix j g g0 = g := by
    intro j hj
    rcases (by omega : j = 0 ∨ 2 ≤ j) with rfl | h2
    · exact .inl (mix_zero _ _)
    · right
      apply mix_same
      obtain ⟨i, rfl⟩ : ∃ i, j = 2 + i := ⟨j - 2, by omega⟩
      rw [Nat.pow_add, ← Nat.div_div_eq_div_mul, ← Nat.div_div_eq_div_mul]
      rw [show (256 : Nat) ^ 2 = 2 ^ 16 by decide, hn]
  obtain ⟨j, hj, h⟩ := again hs m f g g0 hf hf2 hp hg.1 hg0.1 (by
    intro j hj
    rcases key j hj with e | e <;> rw [e] <;> assumption)
  simp only [m', h, Option.some.injEq]
  exact key j hj

/-- The tool ends before the `n`th request (counted from 0) of a write. -/
def afterWord (n : Nat) : Nat → Nat → Option Nat := fun _ i => if i = n then some 0 else none

theorem afterWord_whole (n : Nat) : Whole (afterWord n) := by
  intro w i j h
  unfold afterWord at h
  by_cases hi : i = n
  · rw [if_pos hi] at h; exact (Option.some.inj h).symm
  · rw [if_neg hi] at h; cases h

/-- The negation of **C209**, in general: whatever the two replacements, if they are neither in the same aligned 64 KiB
nor at the same place in it, there is a request before which the tool may end, having written only whole words, and
a call of the function then goes to an address that is neither the old nor the new replacement (nor the function's body):
its two lowest bytes are those of the new one, the others those of the old one. -/
theorem C209_torn (m : Mem) (f g g0 : Nat) (hf : 14 ≤ f) (hf2 : f + 6 < 2 ^ 64) (hp : PlainX86 m f)
    (hg : g < 2 ^ 64) (hg0 : g0 < 2 ^ 64) (h1 : g / 2 ^ 16 ≠ g0 / 2 ^ 16) (h2 : g % 2 ^ 16 ≠ g0 % 2 ^ 16)
    (ho : OutX86 m f (mix 2 g g0)) :
    ∃ stop, Whole stop ∧
      let m' := changeX86 stop (changeX86 never m f g0 true) f g true
      callDest m' f = some (mix 2 g g0) ∧ mix 2 g g0 ≠ g ∧ mix 2 g g0 ≠ g0 := by
  refine ⟨afterWord 1, afterWord_whole 1, ?_⟩
  have hr := patched (g := g0) hp
  have he := X86.redirected_endbr hf hr
  generalize hm1 : changeX86 never m f g0 true = m1 at hr he ⊢
  have e : changeX86 (afterWord 1) m1 f g true
      = m1.store (f - 14) ((X86.prologue (X86.hasEndbr m f) g).take 8) := by
    rw [changeX86, X86.patchAddr_ok (X86.redirected_patchable hf hr) he]
    simp only [if_true, execute]
    have hw : Ptrace.writeBytesPtrace (afterWord 1 0) (X86.prologue (X86.hasEndbr m f) g) (f - 14) m1
        = (m1.store (f - 14) ((X86.prologue (X86.hasEndbr m f) g).take 8), 1) := by
      unfold Ptrace.writeBytesPtrace
      have hlen : (X86.prologue (X86.hasEndbr m f) g).length / 8 = 2 := by
        rw [X86.prologue_length]; cases X86.hasEndbr m f <;> rfl
      rw [hlen]
      simp [Ptrace.writeLoop, afterWord, Ptrace.poke, store_nil]
    rw [hw]
  dsimp only
  rw [e]
  refine ⟨?_, mix_ne ?_ ?_⟩
  · exact X86.callDest_redirected hf hf2 (mix_lt _ _ _ hg hg0) (outX86 ho).2 (redirected_cut hr 8)
  · rwa [show (256 : Nat) ^ 2 = 2 ^ 16 by decide]
  · rwa [show (256 : Nat) ^ 2 = 2 ^ 16 by decide]

/-- A function at 0x1000 with `endbr64`, and one at 0x2000 without; the rest is `nop`. -/
def demoX86 : Mem := fun i =>
  if i = 0x1000 then 0xf3 else if i = 0x1001 then 0x0f else if i = 0x1002 then 0x1e else if i = 0x1003 then 0xfa
  else if i = 0x1004 ∨ i = 0x2000 then 0x66 else 0x90

theorem demo_plain : PlainX86 demoX86 0x1000 ∧ PlainX86 demoX86 0x2000 := by
  unfold PlainX86; decide +kernel

/-- A word that crosses a page boundary is written up to it: two bytes of the second word. -/
def demoStop : Nat → Nat → Option Nat := fun _ i => if i = 1 then some 2 else none

theorem demo_stop : Aligned 2 demoStop := by
  intro w i j h
  unfold demoStop at h
  by_cases hi : i = 1
  · rw [if_pos hi] at h; cases h; decide
  · rw [if_neg hi] at h; cases h

theorem demo_out (f g : Nat) (h : g < 2 ^ 64 ∧ 0x3000 ≤ g) (hf : f = 0x1000 ∨ f = 0x2000) : OutX86 demoX86 f g := by
  refine ⟨h.1, .inr ?_⟩
  unfold body
  rcases hf with rfl | rfl <;> split <;> omega

/-- C209_first_partial: before the last request of three, and with the second word partly written. -/
example : callDest (changeX86 (afterWord 3) demoX86 0x1000 0x7f1234567890 true) 0x1000 = some 0x1006 ∧
    callDest (changeX86 never demoX86 0x1000 0x7f1234567890 true) 0x1000 = some 0x7f1234567890 ∧
    (callDest (changeX86 demoStop demoX86 0x2000 0x7f1234567890 true) 0x2000 = some (body demoX86 0x2000) ∨
      callDest (changeX86 demoStop demoX86 0x2000 0x7f1234567890 true) 0x2000 = some 0x7f1234567890) :=
  ⟨by decide +kernel, by decide +kernel,
    C209_first_partial demo_stop demoX86 0x2000 _ (by omega) (by omega) demo_plain.2 (demo_out _ _ (by omega) (.inr rfl))⟩

/-- C209_done -/
example : callDest (changeX86 never (changeX86 never demoX86 0x1000 0x7f1234567890 true) 0x1000 0x7f12ab001111 true) 0x1000
      = some 0x7f12ab001111 :=
  (C209_done demoX86 0x1000 0x7f12ab001111 0x7f1234567890 0 (by omega) (by omega) demo_plain.1 (demo_out _ _ (by omega) (.inl rfl))
    (demo_out _ _ (by omega) (.inl rfl))).2.1

/-- C209_back_partial: before and after the only word is written. -/
example : callDest (changeX86 (afterWord 1) (changeX86 never demoX86 0x2000 0x7f1234567890 true) 0x2000 0 false) 0x2000
      = some 0x7f1234567890 ∧
    callDest (changeX86 never (changeX86 never demoX86 0x2000 0x7f1234567890 true) 0x2000 0 false) 0x2000 = some 0x2002 ∧
    (let m' := changeX86 demoStop (changeX86 never demoX86 0x1000 0x7f1234567890 true) 0x1000 0 false
     callDest m' 0x1000 = some 0x7f1234567890 ∨ callDest m' 0x1000 = some (body demoX86 0x1000)) :=
  ⟨by decide +kernel, by decide +kernel,
    C209_back_partial demo_stop demoX86 0x1000 _ 0 (by omega) (by omega) demo_plain.1 (demo_out _ _ (by omega) (.inl rfl))⟩

/-- C209_near_partial: two replacements in the same 64 KiB. -/
example : callDest (changeX86 (afterWord 1) (changeX86 never demoX86 0x1000 0x7f1234567890 true) 0x1000 0x7f1234561111 true) 0x1000
      = some 0x7f1234561111 ∧
    (let m' := changeX86 demoStop (changeX86 never demoX86 0x1000 0x7f1234567890 true) 0x1000 0x7f1234561111 true
     callDest m' 0x1000 = some 0x7f1234567890 ∨ callDest m' 0x1000 = some 0x7f1234561111) :=
  ⟨by decide +kernel, C209_near_partial demo_stop demoX86 0x1000 0x7f1234561111 0x7f1234567890 (by omega) (by omega) demo_plain.1
    (demo_out _ _ (by omega) (.inl rfl)) (demo_out _ _ (by omega) (.inl rfl)) (by decide)⟩

/-- C209_torn: replacements in two livepatch containers. -/
example : callDest (changeX86 (afterWord 1) (changeX86 never demoX86 0x1000 0x7f1234567890 true) 0x1000 0x7f12ab001111 true) 0x1000
      = some 0x7f1234561111 ∧
    (∃ stop, Whole stop ∧
      let m' := changeX86 stop (changeX86 never demoX86 0x1000 0x7f1234567890 true) 0x1000 0x7f12ab001111 true
      callDest m' 0x1000 = some (mix 2 0x7f12ab001111 0x7f1234567890) ∧ mix 2 0x7f12ab001111 0x7f1234567890 ≠ 0x7f12ab001111 ∧
        mix 2 0x7f12ab001111 0x7f1234567890 ≠ 0x7f1234567890) :=
  ⟨by decide +kernel, C209_torn demoX86 0x1000 0x7f12ab001111 0x7f1234567890 (by omega) (by omega) demo_plain.1 (by omega) (by omega)
    (by decide) (by decide) (demo_out _ _ (by decide) (.inl rfl))⟩

end

/-! ### C210: POWER -/

namespace Power

open Verif.Power (Entry callDest_plain callDest_redirected)
open Verif.Power.Spec (callDest entryOff body)

variable {t : List UInt8}

theorem offs (m : Mem) (f : Nat) : entryOff m f = 0 ∨ entryOff m f = 8 := by
  unfold entryOff
  by_cases h : m.load f 4 = [0x00, 0x00, 0x00, 0x60]
  · rw [if_pos h]; exact .inl rfl
  · rw [if_neg h]; exact .inr rfl

theorem entry_plain {m : Mem} {f : Nat} (h : PlainPpc m f) : Entry t m (entryOff m f) f none where
  offs := offs m f
  start := by
    intro h8
    refine ⟨fun hn => ?_, fun hb => h.2 (hb.trans (by decide +kernel))⟩
    have hn : m.load f 4 = [0x00, 0x00, 0x00, 0x60] := hn
    rw [entryOff, if_pos hn] at h8
    cases h8
  insn := h.1
  stub := by simp

theorem prologue_len (htl : t.length = 44) (g : Nat) : (Ppc.prologue t g).length = 52 := by simp [Ppc.prologue, htl]

/-- The stub written up to some byte, at the entry of a function as it was. -/
theorem cut_plain (htl : t.length = 44) {m : Mem} {off f : Nat} (g k : Nat) (hf : 52 ≤ f) (h : Entry t m off f none) :
    Entry t (m.store (f - 52) ((Ppc.prologue t g).take k)) off f none := by
  have hl : ((Ppc.prologue t g).take k).length ≤ 52 := by rw [List.length_take, prologue_len htl]; omega
  refine ⟨h.offs, fun h8 => ?_, ?_, by simp⟩
  · rw [load_store_out (by omega)]; exact h.start h8
  · rw [load_store_out (by omega)]; exact h.insn

theorem cut_redirected (htl : t.length = 44) {m : Mem} {off f g0 : Nat} (g k : Nat) (hf : 52 ≤ f) (h : Entry t m off f (some g0)) :
    Entry t (m.store (f - 52) ((Ppc.prologue t g).take k)) off f (some (mix (k - 44) g g0)) := by
  have hl : ((Ppc.prologue t g).take k).length ≤ 52 := by rw [List.length_take, prologue_len htl]; omega
  refine ⟨h.offs, fun h8 => ?_, ?_, ?_⟩
  · rw [load_store_out (by omega)]; exact h.start h8
  · rw [load_store_out (by omega)]; exact h.insn
  · rintro _ ⟨rfl⟩
    have hst : At m (f - 52) (Ppc.prologue t g0) := by
      unfold At; rw [prologue_len htl]; exact h.stub g0 rfl
    have := at_splice hst (l := Ppc.prologue t g) (by rw [prologue_len htl, prologue_len htl]) k
    rw [ppc_splice, htl] at this
    unfold At at this
    rwa [prologue_len htl] at this

/-- The instruction at the entry written. -/
theorem entry_insn {m : Mem} {off f : Nat} {x : Option Nat} (y : Option Nat) (hf : 52 ≤ f) (h : Entry t m off f x)
    (hy : ∀ g, y = some g → m.load (f - 52) 52 = t ++ le 8 g) :
    Entry t (m.store (f + off) (if y.isSome then Ppc.branchBytes off else Ppc.nop)) off f y := by
  have hl : (if y.isSome then Ppc.branchBytes off else Ppc.nop).length = 4 := by
    cases y with
    | none => rfl
    | some g => exact Ppc.branch_length off
  refine ⟨h.offs, fun h8 => ?_, ?_, fun g hg => ?_⟩
  · rw [load_store_out (by omega)]; exact h.start h8
  · have := load_store (m := m) (a := f + off) (bytes := if y.isSome then Ppc.branchBytes off else Ppc.nop)
    rwa [hl] at this
  · rw [load_store_out (by omega)]; exact hy g hg

theorem stub_written (htl : t.length = 44) (m : Mem) (f g : Nat) :
    (m.store (f - 52) (Ppc.prologue t g)).load (f - 52) 52 = t ++ le 8 g := by
  have := load_store (m := m) (a := f - 52) (bytes := Ppc.prologue t g)
  rwa [prologue_len htl] at this

theorem enable_cases {stop : Nat → Nat → Option Nat} (hs : Aligned 4 stop) (htl : t.length = 44) {m : Mem} {off f : Nat} {x : Option Nat}
    (g : Nat) (h : Entry t m off f x) :
    (∃ k, 4 ∣ k ∧ k ≤ 52 ∧ changePpc stop t m f g true = m.store (f - 52) ((Ppc.prologue t g).take k)) ∨
    changePpc stop t m f g true = (m.store (f - 52) (Ppc.prologue t g)).store (f + off) (Ppc.branchBytes off) := by
  have e : (Ppc.patchAddr t m f g true).2 = [(f - 52, Ppc.prologue t g), (f + off, Ppc.branchBytes off)] := by
    unfold Ppc.patchAddr
    rw [h.ready]
    rfl
  rw [changePpc, e]
  rcases execute_two (by decide) hs (Ppc.prologue t g) (Ppc.branchBytes off) (by rw [prologue_len htl]; decide)
      (by rw [Ppc.branch_length]; decide) 0 (f - 52) (f + off) m with ⟨k, hk, hk2, e⟩ | ⟨k, hk, hk2, e⟩
  · rw [prologue_len htl] at hk2
    exact .inl ⟨k, hk, hk2, e⟩
  · rw [Ppc.branch_length] at hk2
    rcases (by omega : k = 0 ∨ k = 4) with rfl | rfl
    · refine .inl ⟨52, by decide, by omega, ?_⟩
      rw [e, List.take_zero, store_nil, List.take_of_length_le (by rw [prologue_len htl]; omega)]
    · refine .inr ?_
      rw [e, List.take_of_length_le (by rw [Ppc.branch_length]; omega)]

theorem patched (htl : t.length = 44) {m : Mem} {f g : Nat} (hf : 52 ≤ f) (hp : PlainPpc m f) :
    Entry t (changePpc never t m f g true) (entryOff m f) f (some g) := by
  have h : Entry t m (entryOff m f) f none := entry_plain hp
  have e : (Ppc.patchAddr t m f g true).2 = [(f - 52, Ppc.prologue t g), (f + entryOff m f, Ppc.branchBytes (entryOff m f))] := by
    unfold Ppc.patchAddr
    rw [h.ready]
    rfl
  have hw : ∀ w bs a (m : Mem), Ptrace.writeBytesPtrace (never w) bs a m = (m.store a bs, 0) := by
    intro w bs a m
    have h0 := (Ptrace.C09_failure_reported (never w) bs a m).mpr (fun _ _ => rfl)
    exact Prod.ext ((Ptrace.C09_write_exact (never w) bs a m).1 h0) h0
  have e2 : changePpc never t m f g true
      = (m.store (f - 52) (Ppc.prologue t g)).store (f + entryOff m f) (Ppc.branchBytes (entryOff m f)) := by
    rw [changePpc, e]
    simp only [execute, hw]
  rw [e2]
  have hc := cut_plain htl g 52 hf h
  rw [List.take_of_length_le (by rw [prologue_len htl]; omega)] at hc
  exact entry_insn (some g) hf hc (by rintro _ ⟨rfl⟩; exact stub_written htl m f g)

/-- **C210** If the tool gets to its end, calls go where they should: to the replacement, to the newer one, to the
function's own body. -/
theorem C210_done (htl : t.length = 44) (m : Mem) (f g g0 x : Nat) (hf : 52 ≤ f) (hp : PlainPpc m f) (hg : g < 2 ^ 64)
    (hg0 : g0 < 2 ^ 64) :
    let m0 := changePpc never t m f g0 true
    let dest := fun m' => callDest t (entryOff m f) m' f
    dest m0 = some g0 ∧ dest (changePpc never t m0 f g true) = some g ∧
      dest (changePpc never t m0 f x false) = some (body m f) := by
  have h := patched (g := g0) htl hf hp
  refine ⟨callDest_redirected htl hf hg0 h, ?_, ?_⟩
  · generalize changePpc never t m f g0 true = m1 at h ⊢
    have e : (Ppc.patchAddr t m1 f g true).2
        = [(f - 52, Ppc.prologue t g), (f + entryOff m f, Ppc.branchBytes (entryOff m f))] := by
      unfold Ppc.patchAddr
      rw [h.ready]
      rfl
    have hw : ∀ w bs a (m : Mem), Ptrace.writeBytesPtrace (never w) bs a m = (m.store a bs, 0) := by
      intro w bs a m
      have h0 := (Ptrace.C09_failure_reported (never w) bs a m).mpr (fun _ _ => rfl)
      exact Prod.ext ((Ptrace.C09_write_exact (never w) bs a m).1 h0) h0
    dsimp only
    rw [changePpc, e]
    simp only [execute, hw]
    have hc := cut_redirected htl g 52 hf h
    rw [List.take_of_length_le (by rw [prologue_len htl]; omega)] at hc
    exact callDest_redirected htl hf hg (entry_insn (some g) hf hc (by rintro _ ⟨rfl⟩; exact stub_written htl m1 f g))
  · generalize changePpc never t m f g0 true = m1 at h ⊢
    have e : (Ppc.patchAddr t m1 f x false).2 = [(f + entryOff m f, Ppc.nop)] := by
      unfold Ppc.patchAddr
      rw [h.ready]
      rfl
    dsimp only
    rw [changePpc, e, execute_never]
    exact callDest_plain (entry_insn none hf h (by simp))

/-- **C210** A function that is not patched is being patched on POWER, and the tool ends at any request: a call of the
function goes to its own body or to the replacement. -/
theorem C210_first_partial {stop : Nat → Nat → Option Nat} (hs : Aligned 4 stop) (htl : t.length = 44) (m : Mem) (f g : Nat) (hf : 52 ≤ f)
    (hp : PlainPpc m f) (hg : g < 2 ^ 64) :
    let m' := changePpc stop t m f g true
    callDest t (entryOff m f) m' f = some (body m f) ∨ callDest t (entryOff m f) m' f = some g := by
  intro m'
  have h : Entry t m (entryOff m f) f none := entry_plain hp
  rcases enable_cases hs htl g h with ⟨k, -, -, e⟩ | e
  · left
    simp only [m', e]
    exact callDest_plain (cut_plain htl g k hf h)
  · right
    simp only [m', e]
    have hc := cut_plain htl g 52 hf h
    rw [List.take_of_length_le (by rw [prologue_len htl]; omega)] at hc
    exact callDest_redirected htl hf hg (entry_insn (some g) hf hc (by rintro _ ⟨rfl⟩; exact stub_written htl m f g))

/-- **C210** A replacement is being taken back on POWER, and the tool ends at any request: a call of the function goes to
the replacement or to the function's own body. -/
theorem C210_back_partial {stop : Nat → Nat → Option Nat} (hs : Aligned 4 stop) (htl : t.length = 44) (m : Mem) (f g x : Nat) (hf : 52 ≤ f)
    (hp : PlainPpc m f) (hg : g < 2 ^ 64) :
    let m' := changePpc stop t (changePpc never t m f g true) f x false
    callDest t (entryOff m f) m' f = some g ∨ callDest t (entryOff m f) m' f = some (body m f) := by
  intro m'
  have h := patched (g := g) htl hf hp
  generalize hm1 : changePpc never t m f g true = m1 at h
  have e : (Ppc.patchAddr t m1 f x false).2 = [(f + entryOff m f, Ppc.nop)] := by
    unfold Ppc.patchAddr
    rw [h.ready]
    rfl
  obtain ⟨k, hk, hk2, ex⟩ := execute_one (by decide) hs Ppc.nop (by decide) 0 (f + entryOff m f) m1
  have em : m' = m1.store (f + entryOff m f) (Ppc.nop.take k) := by
    rw [show m' = changePpc stop t m1 f x false by simp only [m', hm1], changePpc, e]; exact ex
  rw [em]
  simp only [Ppc.nop, List.length_cons, List.length_nil] at hk2
  rcases (by omega : k = 0 ∨ k = 4) with rfl | rfl
  · left
    rw [List.take_zero, store_nil]
    exact callDest_redirected htl hf hg h
  · right
    exact callDest_plain (entry_insn none hf h (by simp))

/-- **C210** A patched function is patched anew on POWER, the tool ends at any request, and the old and the new replacement are in
the same aligned 4 GiB: a call of the function goes to the old or to the new one. -/
theorem C210_near_partial {stop : Nat → Nat → Option Nat} (hs : Aligned 4 stop) (htl : t.length = 44) (m : Mem) (f g g0 : Nat)
    (hf : 52 ≤ f) (hp : PlainPpc m f) (hg : g < 2 ^ 64) (hg0 : g0 < 2 ^ 64) (hn : g / 2 ^ 32 = g0 / 2 ^ 32) :
    let m' := changePpc stop t (changePpc never t m f g0 true) f g true
    callDest t (entryOff m f) m' f = some g0 ∨ callDest t (entryOff m f) m' f = some g := by
  intro m'
  have h := patched (g := g0) htl hf hp
  generalize hm1 : changePpc never t m f g0 true = m1 at h
  rcases enable_cases hs htl g h with ⟨k, hk, hk2, e⟩ | e
  · simp only [m', hm1, e]
    have hc := callDest_redirected htl hf (mix_lt _ _ _ hg hg0) (cut_redirected htl g k hf h)
    rw [hc]
    rcases (by omega : k ≤ 44 ∨ k = 48 ∨ k = 52) with hk | rfl | rfl
    · left; rw [Nat.sub_eq_zero_of_le hk, mix_zero]
    · right; rw [mix_same (by rw [show (256 : Nat) ^ (48 - 44) = 2 ^ 32 by decide]; exact hn)]
    · right; rw [mix_eq _ _ _ (by omega) hg hg0]
  · right
    simp only [m', hm1, e]
    have hc := cut_redirected htl g 52 hf h
    rw [List.take_of_length_le (by rw [prologue_len htl]; omega)] at hc
    exact callDest_redirected htl hf hg (entry_insn (some g) hf hc (by rintro _ ⟨rfl⟩; exact stub_written htl m1 f g))

/-- The negation of **C210**, in general: whatever the two replacements, if they are neither in the same aligned 4 GiB nor
at the same place in it, there is a request before which the tool may end, having written only whole words, and a
call of the function then goes to neither of them: the four lowest bytes of the address are those of the new one, the
others those of the old one. -/
theorem C210_torn (htl : t.length = 44) (m : Mem) (f g g0 : Nat) (hf : 52 ≤ f) (hp : PlainPpc m f)
    (hg : g < 2 ^ 64) (hg0 : g0 < 2 ^ 64) (h1 : g / 2 ^ 32 ≠ g0 / 2 ^ 32) (h2 : g % 2 ^ 32 ≠ g0 % 2 ^ 32) :
    ∃ stop, Whole stop ∧
      let m' := changePpc stop t (changePpc never t m f g0 true) f g true
      callDest t (entryOff m f) m' f = some (mix 4 g g0) ∧ mix 4 g g0 ≠ g ∧ mix 4 g g0 ≠ g0 := by
  refine ⟨afterWord 6, afterWord_whole 6, ?_⟩
  have h := patched (g := g0) htl hf hp
  generalize hm1 : changePpc never t m f g0 true = m1 at h ⊢
  have e : (Ppc.patchAddr t m1 f g true).2
      = [(f - 52, Ppc.prologue t g), (f + entryOff m f, Ppc.branchBytes (entryOff m f))] := by
    unfold Ppc.patchAddr
    rw [h.ready]
    rfl
  have hst : ∀ (n : Nat) (m : Mem) a (bs : List UInt8), 8 * n + 8 ≤ bs.length →
      (m.store a (bs.take (8 * n))).store (a + 8 * n) ((bs.drop (8 * n)).take 8) = m.store a (bs.take (8 * n + 8)) := by
    intro n m a bs hn
    rw [List.take_add, store_append]
    congr 1
    rw [List.length_take]; omega
  have hw : ∀ (bs : List UInt8) a (m : Mem), bs.length = 52 →
      Ptrace.writeBytesPtrace (afterWord 6 0) bs a m = (m.store a (bs.take 48), 1) := by
    intro bs a m hl
    unfold Ptrace.writeBytesPtrace
    rw [hl]
    have s1 := hst 0 m a bs (by omega)
    have s2 := hst 1 m a bs (by omega)
    have s3 := hst 2 m a bs (by omega)
    have s4 := hst 3 m a bs (by omega)
    have s5 := hst 4 m a bs (by omega)
    have s6 := hst 5 m a bs (by omega)
    simp only [Nat.mul_zero, Nat.zero_add, Nat.add_zero, List.take_zero, store_nil, List.drop_zero, Nat.reduceMul,
      Nat.reduceAdd] at s1 s2 s3 s4 s5 s6
    simp [Ptrace.writeLoop, afterWord, Ptrace.poke, List.drop_drop, s2, s3, s4, s5, s6, Nat.add_assoc, hl]
  dsimp only
  have e2 : changePpc (afterWord 6) t m1 f g true = m1.store (f - 52) ((Ppc.prologue t g).take 48) := by
    rw [changePpc, e, execute, hw _ _ _ (prologue_len htl g)]
  rw [e2]
  refine ⟨callDest_redirected htl hf (mix_lt _ _ _ hg hg0) (cut_redirected htl g 48 hf h), mix_ne ?_ ?_⟩
  · rwa [show (256 : Nat) ^ 4 = 2 ^ 32 by decide]
  · rwa [show (256 : Nat) ^ 4 = 2 ^ 32 by decide]

/-- A function at 0x1000 with its NOP at the start, and one at 0x2000 that sets up its TOC pointer first. -/
def demoPpc : Mem := fun i => if i = 0x1003 ∨ i = 0x200b then 0x60 else if i = 0x2003 then 0x3c else 0

def demoT : List UInt8 := List.replicate 44 0x77

theorem demo_t : demoT.length = 44 := by decide

theorem demo_plain : PlainPpc demoPpc 0x1000 ∧ PlainPpc demoPpc 0x2000 := by
  unfold PlainPpc; decide +kernel

/-- The word that holds half of the address crosses a page boundary and is written up to it. -/
def demoStop : Nat → Nat → Option Nat := fun w i => if w = 0 ∧ i = 5 then some 4 else none

theorem demo_stop : Aligned 4 demoStop := by
  intro w i j h
  unfold demoStop at h
  by_cases hi : w = 0 ∧ i = 5
  · rw [if_pos hi] at h; cases h; decide
  · rw [if_neg hi] at h; cases h

/-- C210_first_partial -/
example : callDest demoT 8 (changePpc (afterWord 6) demoT demoPpc 0x2000 0x7fff12345678 true) 0x2000 = some 0x200c ∧
    callDest demoT 8 (changePpc never demoT demoPpc 0x2000 0x7fff12345678 true) 0x2000 = some 0x7fff12345678 ∧
    (let m' := changePpc demoStop demoT demoPpc 0x1000 0x7fff12345678 true
     callDest demoT (entryOff demoPpc 0x1000) m' 0x1000 = some (body demoPpc 0x1000) ∨
       callDest demoT (entryOff demoPpc 0x1000) m' 0x1000 = some 0x7fff12345678) :=
  ⟨by decide +kernel, by decide +kernel, C210_first_partial demo_stop demo_t demoPpc 0x1000 _ (by omega) demo_plain.1 (by omega)⟩

/-- C210_done -/
example : callDest demoT (entryOff demoPpc 0x2000) (changePpc never demoT (changePpc never demoT demoPpc 0x2000 0x7fff12345678 true)
      0x2000 0x7ffe9abc0000 true) 0x2000 = some 0x7ffe9abc0000 :=
  (C210_done demo_t demoPpc 0x2000 0x7ffe9abc0000 0x7fff12345678 0 (by omega) demo_plain.2 (by omega) (by omega)).2.1

/-- C210_back_partial -/
example : callDest demoT 8 (changePpc (afterWord 1) demoT (changePpc never demoT demoPpc 0x2000 0x7fff12345678 true) 0x2000 0 false) 0x2000
      = some 0x7fff12345678 ∧
    callDest demoT 8 (changePpc never demoT (changePpc never demoT demoPpc 0x2000 0x7fff12345678 true) 0x2000 0 false) 0x2000
      = some 0x200c ∧
    (let m' := changePpc demoStop demoT (changePpc never demoT demoPpc 0x1000 0x7fff12345678 true) 0x1000 0 false
     callDest demoT (entryOff demoPpc 0x1000) m' 0x1000 = some 0x7fff12345678 ∨
       callDest demoT (entryOff demoPpc 0x1000) m' 0x1000 = some (body demoPpc 0x1000)) :=
  ⟨by decide +kernel, by decide +kernel, C210_back_partial demo_stop demo_t demoPpc 0x1000 _ 0 (by omega) demo_plain.1 (by omega)⟩

/-- C210_near_partial -/
example : callDest demoT 8 (changePpc (afterWord 6) demoT (changePpc never demoT demoPpc 0x2000 0x7fff12345678 true) 0x2000
      0x7fff9abc0000 true) 0x2000 = some 0x7fff9abc0000 ∧
    (let m' := changePpc demoStop demoT (changePpc never demoT demoPpc 0x1000 0x7fff12345678 true) 0x1000 0x7fff9abc0000 true
     callDest demoT (entryOff demoPpc 0x1000) m' 0x1000 = some 0x7fff12345678 ∨
       callDest demoT (entryOff demoPpc 0x1000) m' 0x1000 = some 0x7fff9abc0000) :=
  ⟨by decide +kernel, C210_near_partial demo_stop demo_t demoPpc 0x1000 0x7fff9abc0000 0x7fff12345678 (by omega) demo_plain.1
    (by omega) (by omega) (by decide)⟩

/-- C210_torn -/
example : callDest demoT 8 (changePpc (afterWord 6) demoT (changePpc never demoT demoPpc 0x2000 0x7fff12345678 true) 0x2000
      0x7ffe9abc0000 true) 0x2000 = some 0x7fff9abc0000 ∧
    (∃ stop, Whole stop ∧
      let m' := changePpc stop demoT (changePpc never demoT demoPpc 0x1000 0x7fff12345678 true) 0x1000 0x7ffe9abc0000 true
      callDest demoT (entryOff demoPpc 0x1000) m' 0x1000 = some (mix 4 0x7ffe9abc0000 0x7fff12345678) ∧
        mix 4 0x7ffe9abc0000 0x7fff12345678 ≠ 0x7ffe9abc0000 ∧ mix 4 0x7ffe9abc0000 0x7fff12345678 ≠ 0x7fff12345678) :=
  ⟨by decide +kernel, C210_torn demo_t demoPpc 0x1000 0x7ffe9abc0000 0x7fff12345678 (by omega) demo_plain.1 (by omega) (by omega)
    (by decide) (by decide)⟩

end Power

end Verif.Torn
