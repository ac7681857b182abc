import Verif.Refs.Model
import Verif.Refs.Spec
import Verif.Torn.Props
import Verif.Runtime.Props
import Verif.Power.Props

namespace Verif.Refs

open Verif.Torn (execute Whole never Aligned write_cut)
open Verif.Runtime (World RefM State)

/-- Two places that do not overlap. -/
def Apart (a b : Nat × List UInt8) : Prop := a.1 + a.2.length ≤ b.1 ∨ b.1 + b.2.length ≤ a.1

/-- References of a livepatch that do not overlap: each takes 8 bytes, that of a thread-local variable 16. -/
def Disjoint (w : World) (so : Nat) (refs : List RefM) : Prop :=
  refs.Pairwise fun a b => place w so a + (if a.tls then 16 else 8) ≤ place w so b ∨
    place w so b + (if b.tls then 16 else 8) ≤ place w so a

theorem content_length (dtv base idx : Nat) (r : RefM) : (content dtv base idx r).length = if r.tls then 16 else 8 := by
  unfold content; split <;> simp

theorem whole_aligned {stop : Nat → Nat → Option Nat} (h : Whole stop) : Aligned 8 stop := by
  intro w i j hj; rw [h w i j hj]; exact Nat.dvd_zero 8

/-- Writes elsewhere do not matter. -/
theorem execute_out {stop : Nat → Nat → Option Nat} (hs : Whole stop) (a n : Nat) :
    ∀ (ws : List (Nat × List UInt8)) (i : Nat) (m : Mem), (∀ x ∈ ws, 8 ∣ x.2.length) →
      (∀ x ∈ ws, x.1 + x.2.length ≤ a ∨ a + n ≤ x.1) → (execute stop i ws m).load a n = m.load a n := by
  intro ws
  induction ws with
  | nil => intro i m _ _; rfl
  | cons x ws ih =>
    intro i m h8 hd
    obtain ⟨b, bs⟩ := x
    have hx := hd _ List.mem_cons_self
    simp only at hx
    rcases write_cut (by decide) (whole_aligned hs i) bs (h8 _ List.mem_cons_self) b m with ⟨e1, e2⟩ | ⟨e1, k, -, hk, e2⟩
    · rw [execute, show Ptrace.writeBytesPtrace (stop i) bs b m = (m.store b bs, 0) from Prod.ext e2 e1]
      simp only
      rw [ih (i + 1) _ (fun x hx => h8 x (List.mem_cons_of_mem _ hx)) (fun x hx => hd x (List.mem_cons_of_mem _ hx))]
      exact load_store_out (by omega)
    · rw [execute, show Ptrace.writeBytesPtrace (stop i) bs b m = (m.store b (bs.take k), 1) from Prod.ext e2 e1]
      simp only
      exact load_store_out (by rw [List.length_take]; omega)

/-- Of each write a number of words has been made. -/
theorem execute_each {stop : Nat → Nat → Option Nat} (hs : Whole stop) :
    ∀ (ws : List (Nat × List UInt8)) (i : Nat) (m : Mem), (∀ x ∈ ws, 8 ∣ x.2.length) → ws.Pairwise Apart →
      ∀ x ∈ ws, ∃ k, 8 ∣ k ∧ k ≤ x.2.length ∧
        (execute stop i ws m).load x.1 k = x.2.take k ∧
        (execute stop i ws m).load (x.1 + k) (x.2.length - k) = m.load (x.1 + k) (x.2.length - k) := by
  intro ws
  induction ws with
  | nil => intro _ _ _ _ x hx; cases hx
  | cons y ws ih =>
    intro i m h8 hp x hx
    obtain ⟨b, bs⟩ := y
    obtain ⟨hap, hp⟩ := List.pairwise_cons.mp hp
    have h8' : ∀ x ∈ ws, 8 ∣ x.2.length := fun x hx => h8 x (List.mem_cons_of_mem _ hx)
    rcases write_cut (by decide) (whole_aligned hs i) bs (h8 _ List.mem_cons_self) b m with ⟨e1, e2⟩ | ⟨e1, k, hk8, hk, e2⟩
    · have ee : execute stop i ((b, bs) :: ws) m = execute stop (i + 1) ws (m.store b bs) := by
        rw [execute, show Ptrace.writeBytesPtrace (stop i) bs b m = (m.store b bs, 0) from Prod.ext e2 e1]
      rw [ee]
      rcases List.mem_cons.mp hx with rfl | hx
      · refine ⟨bs.length, h8 _ List.mem_cons_self, Nat.le_refl _, ?_, by simp [Mem.load]⟩
        rw [execute_out hs b bs.length ws _ _ h8' (fun z hz => by
          have := hap z hz; unfold Apart at this; simp only at this; omega)]
        simp [load_store]
      · obtain ⟨k, h1, h2, h3, h4⟩ := ih (i + 1) (m.store b bs) h8' hp x hx
        refine ⟨k, h1, h2, h3, h4.trans ?_⟩
        have := hap x hx; unfold Apart at this; simp only at this
        exact load_store_out (by omega)
    · have ee : execute stop i ((b, bs) :: ws) m = m.store b (bs.take k) := by
        rw [execute, show Ptrace.writeBytesPtrace (stop i) bs b m = (m.store b (bs.take k), 1) from Prod.ext e2 e1]
      rw [ee]
      have hl : (bs.take k).length = k := by rw [List.length_take]; omega
      rcases List.mem_cons.mp hx with rfl | hx
      · refine ⟨k, hk8, hk, ?_, load_store_out (by simp only [hl]; omega)⟩
        have : (m.store b (bs.take k)).load b (bs.take k).length = bs.take k := load_store
        rwa [hl] at this
      · have := hap x hx; unfold Apart at this; simp only at this
        exact ⟨0, Nat.dvd_zero 8, Nat.zero_le _, rfl, load_store_out (by rw [hl]; omega)⟩

theorem writes_apart {dtv base idx so : Nat} {w : World} {refs : List RefM} (h : Disjoint w so refs) :
    (writes dtv w base idx so refs).Pairwise Apart := by
  unfold writes
  rw [List.pairwise_map]
  refine h.imp ?_
  intro a b hab
  unfold Apart
  simp only [content_length]
  exact hab

theorem writes_dvd {dtv base idx so : Nat} {w : World} {refs : List RefM} :
    ∀ x ∈ writes dtv w base idx so refs, 8 ∣ x.2.length := by
  intro x hx
  obtain ⟨r, -, rfl⟩ := List.mem_map.mp hx
  simp only [content_length]
  split <;> decide

/-- Wherever the tool ends, the reference to an ordinary variable holds the variable's address, or what it held before. -/
theorem core_address {stop : Nat → Nat → Option Nat} (hs : Whole stop) (dtv : Nat) (w : World) (base idx so : Nat)
    (refs : List RefM) (hd : Disjoint w so refs) (m : Mem) (r : RefM) (hr : r ∈ refs) (ht : r.tls = false) :
    let m' := set stop dtv w base idx so refs m
    leVal (m'.load (place w so r) 8) = (base + r.targetOff) % 2 ^ 64 ∨ m'.load (place w so r) 8 = m.load (place w so r) 8 := by
  intro m'
  obtain ⟨k, h1, h2, h3, h4⟩ := execute_each hs _ 0 m writes_dvd (writes_apart (dtv := dtv) (base := base) (idx := idx) hd) _
    (List.mem_map_of_mem (f := fun r => (place w so r, content dtv base idx r)) hr)
  simp only [content_length, ht, Bool.false_eq_true, if_false] at h2 h3 h4
  have hk : k = 0 ∨ k = 8 := by omega
  rcases hk with rfl | rfl
  · right; exact h4
  · left
    have hc : content dtv base idx r = le 8 (base + r.targetOff) := by simp [content, ht]
    rw [hc, List.take_of_length_le (by simp)] at h3
    show leVal ((execute stop 0 _ m).load _ 8) = _
    rw [show writes dtv w base idx so refs = refs.map (fun r => (place w so r, content dtv base idx r)) from rfl] at *
    rw [h3, leVal_le]

/-- Wherever the tool ends, the reference to a thread-local variable holds module and
offset, or what it held before, or the module with the offset that was there before. -/
theorem core_thread {stop : Nat → Nat → Option Nat} (hs : Whole stop) (dtv : Nat) (w : World) (base idx so : Nat)
    (refs : List RefM) (hd : Disjoint w so refs) (m : Mem) (r : RefM) (hr : r ∈ refs) (ht : r.tls = true) :
    let m' := set stop dtv w base idx so refs m
    let p := place w so r
    (m'.load p 8 = le 8 idx ∧ m'.load (p + 8) 8 = le 8 (r.targetOff + (2 ^ 64 - dtv))) ∨ m'.load p 16 = m.load p 16 ∨
      (m'.load p 8 = le 8 idx ∧ m'.load (p + 8) 8 = m.load (p + 8) 8) := by
  intro m' p
  obtain ⟨k, h1, h2, h3, h4⟩ := execute_each hs _ 0 m writes_dvd (writes_apart (dtv := dtv) (base := base) (idx := idx) hd) _
    (List.mem_map_of_mem (f := fun r => (place w so r, content dtv base idx r)) hr)
  have hc : content dtv base idx r = le 8 idx ++ le 8 (r.targetOff + (2 ^ 64 - dtv)) := by simp [content, ht]
  simp only [content_length, ht, if_true] at h2 h3 h4
  rw [hc] at h3
  have hk : k = 0 ∨ k = 8 ∨ k = 16 := by omega
  rcases hk with rfl | rfl | rfl
  · right; left; exact h4
  · right; right
    exact ⟨by rw [List.take_left' (by simp)] at h3; exact h3, h4⟩
  · left
    rw [List.take_of_length_le (by simp), show (16 : Nat) = 8 + 8 from rfl, load_append] at h3
    exact List.append_inj h3 (by simp)

/-- The tool ends at the second request of the `n`th write, before anything of its word is written. -/
def within (n : Nat) : Nat → Nat → Option Nat := fun w i => if w = n ∧ i = 1 then some 0 else none

theorem within_whole (n : Nat) : Whole (within n) := by
  intro w i j h
  unfold within at h
  by_cases hi : w = n ∧ i = 1
  · rw [if_pos hi] at h; exact (Option.some.inj h).symm
  · rw [if_neg hi] at h; cases h

theorem write_ok {stop : Nat → Option Nat} (h : ∀ i, stop i = none) (bs : List UInt8) (a : Nat) (m : Mem) :
    Ptrace.writeBytesPtrace stop bs a m = (m.store a bs, 0) := by
  have h0 := (Ptrace.C09_failure_reported stop bs a m).mpr (fun i _ => h i)
  exact Prod.ext ((Ptrace.C09_write_exact stop bs a m).1 h0) h0

theorem execute_within {n a : Nat} {b1 b2 : List UInt8} (h1 : b1.length = 8) (h2 : b2.length = 8)
    (ws2 : List (Nat × List UInt8)) : ∀ (ws1 : List (Nat × List UInt8)) (i : Nat) (m : Mem), i + ws1.length = n →
      (∀ x ∈ ws1, Apart x (a, b1 ++ b2)) →
      (execute (within n) i (ws1 ++ (a, b1 ++ b2) :: ws2) m).load a 8 = b1 ∧
        (execute (within n) i (ws1 ++ (a, b1 ++ b2) :: ws2) m).load (a + 8) 8 = m.load (a + 8) 8 := by
  intro ws1
  induction ws1 with
  | nil =>
    intro i m hi _
    have hi : i = n := by simpa using hi
    subst hi
    have hw : Ptrace.writeBytesPtrace (within i i) (b1 ++ b2) a m = (m.store a b1, 1) := by
      unfold Ptrace.writeBytesPtrace
      rw [show (b1 ++ b2).length / 8 = 2 by simp [h1, h2]]
      have e1 : (b1 ++ b2).take 8 = b1 := List.take_left' h1
      simp [Ptrace.writeLoop, within, Ptrace.poke, store_nil, e1]
    rw [List.nil_append, execute, hw]
    simp only
    refine ⟨?_, load_store_out (by omega)⟩
    have : (m.store a b1).load a b1.length = b1 := load_store
    rwa [h1] at this
  | cons x ws1 ih =>
    intro i m hi hd
    obtain ⟨b, bs⟩ := x
    simp only [List.length_cons] at hi
    have hw := write_ok (stop := within n i) (fun j => by unfold within; rw [if_neg (by omega)]) bs b m
    rw [List.cons_append, execute, hw]
    simp only
    obtain ⟨g1, g2⟩ := ih (i + 1) (m.store b bs) (by omega) (fun x hx => hd x (List.mem_cons_of_mem _ hx))
    refine ⟨g1, g2.trans ?_⟩
    have := hd _ List.mem_cons_self
    unfold Apart at this
    simp only [List.length_append, h1, h2] at this
    exact load_store_out (by omega)

/-- Whatever the references of the livepatch: for each that is to a thread-local variable there is a
request at which the tool may end, having written only whole words, and the reference then holds the module of the
variable, but the offset that was there before: unless that happens to be the right one, it refers to another variable. -/
theorem core_torn (dtv : Nat) (w : World) (base idx so : Nat) (refs : List RefM) (hd : Disjoint w so refs) (m : Mem) (r : RefM)
    (hr : r ∈ refs) (ht : r.tls = true) :
    ∃ stop, Whole stop ∧
      let m' := set stop dtv w base idx so refs m
      leVal (m'.load (place w so r) 8) = idx % 2 ^ 64 ∧ m'.load (place w so r + 8) 8 = m.load (place w so r + 8) 8 := by
  obtain ⟨pre, post, rfl⟩ := List.append_of_mem hr
  refine ⟨within pre.length, within_whole _, ?_⟩
  have hc : content dtv base idx r = le 8 idx ++ le 8 (r.targetOff + (2 ^ 64 - dtv)) := by simp [content, ht]
  have ha := writes_apart (dtv := dtv) (base := base) (idx := idx) hd
  unfold set
  rw [show writes dtv w base idx so (pre ++ r :: post) = writes dtv w base idx so pre ++
    (place w so r, le 8 idx ++ le 8 (r.targetOff + (2 ^ 64 - dtv))) :: writes dtv w base idx so post by
      simp [writes, hc]] at ha ⊢
  obtain ⟨g1, g2⟩ := execute_within (n := pre.length) (b1 := le 8 idx) (b2 := le 8 (r.targetOff + (2 ^ 64 - dtv))) (by simp) (by simp)
    (writes dtv w base idx so post) (writes dtv w base idx so pre) 0 m (by simp [writes])
    (fun x hx => (List.pairwise_append.mp ha).2.2 x hx _ List.mem_cons_self)
  exact ⟨by rw [g1, leVal_le], g2⟩

/-- If the tool gets to its end, all references are set. -/
theorem core_done (dtv : Nat) (w : World) (base idx so : Nat) (refs : List RefM) (hd : Disjoint w so refs) (m : Mem) (r : RefM)
    (hr : r ∈ refs) :
    (set never dtv w base idx so refs m).load (place w so r) (if r.tls then 16 else 8) = content dtv base idx r := by
  have hall : ∀ (ws : List (Nat × List UInt8)) (i : Nat) (m : Mem), ws.Pairwise Apart → (∀ x ∈ ws, 8 ∣ x.2.length) → ∀ x ∈ ws,
      (execute never i ws m).load x.1 x.2.length = x.2 := by
    intro ws
    induction ws with
    | nil => intro _ _ _ _ x hx; cases hx
    | cons y ws ih =>
      intro i m hp h8 x hx
      obtain ⟨b, bs⟩ := y
      obtain ⟨hap, hp⟩ := List.pairwise_cons.mp hp
      have h8' : ∀ x ∈ ws, 8 ∣ x.2.length := fun x hx => h8 x (List.mem_cons_of_mem _ hx)
      rw [execute, write_ok (stop := never i) (fun _ => rfl)]
      simp only
      rcases List.mem_cons.mp hx with rfl | hx
      · rw [execute_out (stop := never) (fun _ _ _ h => by cases h) b bs.length ws _ _ h8' (fun z hz => by
          have := hap z hz; unfold Apart at this; simp only at this; omega)]
        exact load_store
      · exact ih _ _ hp h8' x hx
  have := hall _ 0 m (writes_apart (dtv := dtv) (base := base) (idx := idx) hd) writes_dvd _
    (List.mem_map_of_mem (f := fun r => (place w so r, content dtv base idx r)) hr)
  rw [← content_length dtv base idx r]
  exact this

/-! ### these are the writes that libpulp queues -/

theorem le_add_pow (n x : Nat) : le n (x + 256 ^ n) = le n x := by
  induction n generalizing x with
  | zero => rfl
  | succ n ih =>
    have e : (x + 256 ^ (n + 1)) / 256 = x / 256 + 256 ^ n := by
      rw [Nat.pow_succ, Nat.add_mul_div_right _ _ (by decide)]
    have e2 : UInt8.ofNat (x + 256 ^ (n + 1)) = UInt8.ofNat x := by
      apply UInt8.toNat_inj.mp
      simp only [UInt8.toNat_ofNat']
      rw [Nat.pow_succ]
      exact Nat.add_mul_mod_self_right _ _ _
    simp only [le, e, ih, e2]

/-- On x86-64, these are the writes that `ulp_apply_all_units` queues for the references. -/
theorem queued_x86 {w : World} {base idx so : Nat} (refs : List RefM) (s s' : State)
    (h : Runtime.applyRefs w base idx so refs s = (s', 0)) (hv : ∀ r ∈ refs, place w so r < 2 ^ 64) :
    Runtime.Emits s s' ((writes 0 w base idx so refs).map fun x => .write x.1 x.2) := by
  have h := (Runtime.applyRefs_ok refs s s' h hv).1
  have e : (fun x => InsnQueue.Req.write x.1 x.2) ∘ (fun r => (place w so r, content 0 base idx r)) =
      fun r => .write (Runtime.Spec.refAddr w so r) (Runtime.refBytes base idx r) := by
    funext r
    simp only [Function.comp, InsnQueue.Req.write.injEq]
    refine ⟨rfl, ?_⟩
    unfold content Runtime.refBytes
    rw [show r.targetOff + (2 ^ 64 - 0) = r.targetOff + 256 ^ 8 from rfl, le_add_pow]
  unfold writes
  rw [List.map_map, e]
  exact h

/-- The same on POWER. -/
theorem queued_power {w : World} {base idx so : Nat} (refs : List RefM) (s s' : State)
    (h : Power.applyRefs w base idx so refs s = (s', 0)) (hv : ∀ r ∈ refs, place w so r < 2 ^ 64) :
    Runtime.Emits s s' ((writes 0x8000 w base idx so refs).map fun x => .write x.1 x.2) := by
  have h := (Power.applyRefs_ok refs s s' h hv).1
  unfold writes
  rw [List.map_map]
  exact h

/-! ### C213 -/

section

open Verif.Runtime.Spec (refAddr refSize)
open Verif.Refs.Spec (Right)

theorem right_of {dtv base idx p : Nat} {m : Mem} {r : RefM}
    (h : m.load p (if r.tls then 16 else 8) = content dtv base idx r) : Right dtv base idx m p r := by
  unfold Right
  unfold content at h
  cases ht : r.tls with
  | false =>
    simp only [ht, Bool.false_eq_true, if_false] at h ⊢
    rw [h, leVal_le]
  | true =>
    simp only [ht, if_true] at h ⊢
    rw [show (16 : Nat) = 8 + 8 from rfl, load_append] at h
    obtain ⟨a, b⟩ := List.append_inj h (by simp)
    rw [a, b, leVal_le, leVal_le]
    exact ⟨rfl, rfl⟩

/-- **C213** Wherever the tool ends, the reference to an ordinary variable is right, or as it was before. -/
theorem C213_address_partial {stop : Nat → Nat → Option Nat} (hs : Whole stop) (dtv : Nat) (w : World) (base idx so : Nat)
    (refs : List RefM) (hd : Spec.Apart w so refs) (m : Mem) (r : RefM) (hr : r ∈ refs) (ht : r.tls = false) :
    let m' := set stop dtv w base idx so refs m
    Right dtv base idx m' (refAddr w so r) r ∨ m'.load (refAddr w so r) 8 = m.load (refAddr w so r) 8 := by
  intro m'
  unfold Right
  simp only [ht, Bool.false_eq_true, if_false]
  exact core_address hs dtv w base idx so refs hd m r hr ht

/-- **C213** (partial: right or as before) Wherever the tool ends, the reference to a thread-local variable is right, or as it was
before, or it holds the right module with the offset that was there before. -/
theorem C213_thread_partial {stop : Nat → Nat → Option Nat} (hs : Whole stop) (dtv : Nat) (w : World) (base idx so : Nat)
    (refs : List RefM) (hd : Spec.Apart w so refs) (m : Mem) (r : RefM) (hr : r ∈ refs) (ht : r.tls = true) :
    let m' := set stop dtv w base idx so refs m
    let p := refAddr w so r
    Right dtv base idx m' p r ∨ m'.load p 16 = m.load p 16 ∨
      (leVal (m'.load p 8) = idx % 2 ^ 64 ∧ m'.load (p + 8) 8 = m.load (p + 8) 8) := by
  intro m' p
  unfold Right
  simp only [ht, if_true]
  rcases core_thread hs dtv w base idx so refs hd m r hr ht with ⟨a, b⟩ | h | ⟨a, b⟩
  · left
    exact ⟨(congrArg leVal a).trans (leVal_le _ _), (congrArg leVal b).trans (leVal_le _ _)⟩
  · exact .inr (.inl h)
  · exact .inr (.inr ⟨(congrArg leVal a).trans (leVal_le _ _), b⟩)

/-- **C213** (negation, in general) Whatever the references of the livepatch: for each that is to a thread-local variable and had neither
the module nor the offset before, there is a request at which the tool may end, having written only whole words, and the
reference then is neither right nor as it was before: it refers to another place of the variable's module. -/
theorem C213_torn (dtv : Nat) (w : World) (base idx so : Nat) (refs : List RefM) (hd : Spec.Apart w so refs) (m : Mem) (r : RefM)
    (hr : r ∈ refs) (ht : r.tls = true) (h1 : leVal (m.load (refAddr w so r) 8) ≠ idx % 2 ^ 64)
    (h2 : leVal (m.load (refAddr w so r + 8) 8) ≠ (r.targetOff + (2 ^ 64 - dtv)) % 2 ^ 64) :
    ∃ stop, Whole stop ∧
      let m' := set stop dtv w base idx so refs m
      let p := refAddr w so r
      ¬ Right dtv base idx m' p r ∧ m'.load p 16 ≠ m.load p 16 ∧
        leVal (m'.load p 8) = idx % 2 ^ 64 ∧ m'.load (p + 8) 8 = m.load (p + 8) 8 := by
  obtain ⟨stop, hw, g1, g2⟩ := core_torn dtv w base idx so refs hd m r hr ht
  refine ⟨stop, hw, ?_, ?_, g1, g2⟩
  · unfold Right
    simp only [ht, if_true]
    rintro ⟨-, h⟩
    exact h2 ((congrArg leVal g2).symm.trans h)
  · intro h
    rw [show (16 : Nat) = 8 + 8 from rfl, load_append, load_append] at h
    exact h1 ((congrArg leVal (List.append_inj h (by simp)).1).symm.trans g1)

/-- **C213** If the tool gets to its end, all references are right. -/
theorem C213_done (dtv : Nat) (w : World) (base idx so : Nat) (refs : List RefM) (hd : Spec.Apart w so refs) (m : Mem) (r : RefM)
    (hr : r ∈ refs) : Right dtv base idx (set never dtv w base idx so refs m) (refAddr w so r) r :=
  right_of (core_done dtv w base idx so refs hd m r hr)

end

/-! ### examples -/

/-- An ordinary reference, and one to the thread-local variable at 0x10 of module 3. -/
def demoRefs : List RefM :=
  [{ targetName := [1], refName := [2], targetOff := 0x123, patchOff := 8, tls := false },
   { targetName := [3], refName := [4], targetOff := 0x10, patchOff := 0x20, tls := true }]

def demoMem : Mem := fun _ => 0

theorem demo_disjoint : Spec.Apart Runtime.demoWorld 0x5000 demoRefs := by
  unfold Spec.Apart demoRefs
  refine List.pairwise_cons.mpr ⟨?_, List.pairwise_singleton _ _⟩
  intro b hb
  rw [List.mem_singleton.mp hb]
  decide

example := C213_address_partial (within_whole 1) 0 Runtime.demoWorld 0x400000 3 0x5000 demoRefs demo_disjoint demoMem
  { targetName := [1], refName := [2], targetOff := 0x123, patchOff := 8, tls := false } (by simp [demoRefs]) rfl

/-- After the first reference and one word of the second: the reference is to the variable at 0 of module 3. -/
example : let m := set (within 1) 0 Runtime.demoWorld 0x400000 3 0x5000 demoRefs demoMem
    leVal (m.load 0x5008 8) = 0x400123 ∧ leVal (m.load 0x5020 8) = 3 ∧ leVal (m.load 0x5028 8) = 0 := by decide +kernel

example := C213_thread_partial (within_whole 1) 0 Runtime.demoWorld 0x400000 3 0x5000 demoRefs demo_disjoint demoMem
  { targetName := [3], refName := [4], targetOff := 0x10, patchOff := 0x20, tls := true } (by simp [demoRefs]) rfl

/-- On POWER: the torn reference has module 3, and the offset 0 instead of 0x10 - 0x8000. -/
example : ∃ stop, Whole stop ∧ ¬ Spec.Right 0x8000 0x400000 3 (set stop 0x8000 Runtime.demoWorld 0x400000 3 0x5000 demoRefs demoMem) 0x5020
    { targetName := [3], refName := [4], targetOff := 0x10, patchOff := 0x20, tls := true } := by
  obtain ⟨stop, h, h', -⟩ := C213_torn 0x8000 Runtime.demoWorld 0x400000 3 0x5000 demoRefs demo_disjoint demoMem
    { targetName := [3], refName := [4], targetOff := 0x10, patchOff := 0x20, tls := true } (by simp [demoRefs]) rfl (by decide +kernel) (by decide +kernel)
  exact ⟨stop, h, h'⟩

example : Spec.Right 0 0x400000 3 (set never 0 Runtime.demoWorld 0x400000 3 0x5000 demoRefs demoMem) 0x5020
    { targetName := [3], refName := [4], targetOff := 0x10, patchOff := 0x20, tls := true } :=
  C213_done 0 Runtime.demoWorld 0x400000 3 0x5000 demoRefs demo_disjoint demoMem _ (by simp [demoRefs])

end Verif.Refs
