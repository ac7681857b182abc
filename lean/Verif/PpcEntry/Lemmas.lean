import Verif.PpcEntry.Spec
import Verif.Ptrace.Props

namespace Verif.PpcEntry

/-- The thread at the entry of the function, if the routine was started at its label. -/
def entryT (a : Nat) (d : Int) (t : Thread) : Thread :=
  { regs := { t.regs with
      nip := a + 28
      r2 := wrap (wrap (t.regs.r12 + sext (ha d) * 0x10000) + sext (lo d))
      r0 := t.regs.lr
      r1 := t.regs.r1 - 32
      lr := a + 32 }
    mem := (t.mem.store (t.regs.r1 + 16) (le 8 t.regs.lr)).store (t.regs.r1 - 32) (le 8 t.regs.r1) }

/-- The thread at the trap, the function having left `u`. -/
def trapT (a : Nat) (u : Thread) : Thread :=
  { regs := { u.regs with
      nip := a + 48
      r1 := u.regs.r1 + 32
      r0 := leVal (u.mem.load (u.regs.r1 + 32 + 16) 8)
      lr := leVal (u.mem.load (u.regs.r1 + 32 + 16) 8)
      way := .none }
    mem := u.mem }

theorem exec_label (a : Nat) (d : Int) (f : Body) (n : Nat) (t : Thread) (h : t.regs.nip = a) :
    exec a d f (n + 13) t = some (trapT a (f (entryT a d t))) := by
  have o0 : ((a : Nat) : Int) - a = 0 := by omega
  have o1 : ((a + 4 : Nat) : Int) - a = 4 := by omega
  have o2 : ((a + 4 + 4 : Nat) : Int) - a = 8 := by omega
  have o3 : ((a + 4 + 4 + 4 : Nat) : Int) - a = 12 := by omega
  have o4 : ((a + 4 + 4 + 4 + 4 : Nat) : Int) - a = 16 := by omega
  have o5 : ((a + 4 + 4 + 4 + 4 + 4 : Nat) : Int) - a = 20 := by omega
  have o6 : ((a + 4 + 4 + 4 + 4 + 4 + 4 : Nat) : Int) - a = 24 := by omega
  have o7 : ((a + 4 + 4 + 4 + 4 + 4 + 4 + 4 : Nat) : Int) - a = 28 := by omega
  have o8 : ((a + 4 + 4 + 4 + 4 + 4 + 4 + 4 + 4 : Nat) : Int) - a = 32 := by omega
  have o9 : ((a + 4 + 4 + 4 + 4 + 4 + 4 + 4 + 4 + 4 : Nat) : Int) - a = 36 := by omega
  have o10 : ((a + 4 + 4 + 4 + 4 + 4 + 4 + 4 + 4 + 4 + 4 : Nat) : Int) - a = 40 := by omega
  have o11 : ((a + 4 + 4 + 4 + 4 + 4 + 4 + 4 + 4 + 4 + 4 + 4 : Nat) : Int) - a = 44 := by omega
  have o12 : ((a + 4 + 4 + 4 + 4 + 4 + 4 + 4 + 4 + 4 + 4 + 4 + 4 : Nat) : Int) - a = 48 := by omega
  have c0 : code d 0 = some .nop := rfl
  have c1 : code d 4 = some .nop := rfl
  have c2 : code d 8 = some (.addis (ha d)) := rfl
  have c3 : code d 12 = some (.addi (lo d)) := rfl
  have c4 : code d 16 = some .mflr0 := rfl
  have c5 : code d 20 = some .std := rfl
  have c6 : code d 24 = some .stdu := rfl
  have c7 : code d 28 = some .bl := rfl
  have c8 : code d 32 = some .nop := rfl
  have c9 : code d 36 = some .pop := rfl
  have c10 : code d 40 = some .ld := rfl
  have c11 : code d 44 = some .mtlr0 := rfl
  have c12 : code d 48 = some .trap := rfl
  rw [exec, h, o0, c0]
  simp only [Thread.next, h]
  rw [exec]; simp only [o1, c1, Thread.next]
  rw [exec]; simp only [o2, c2, Thread.next]
  rw [exec]; simp only [o3, c3, Thread.next]
  rw [exec]; simp only [o4, c4, Thread.next]
  rw [exec]; simp only [o5, c5, Thread.next]
  rw [exec]; simp only [o6, c6, Thread.next]
  rw [exec]; simp only [o7, c7, Thread.next]
  rw [exec]; simp only [o8, c8, Thread.next]
  rw [exec]; simp only [o9, c9, Thread.next]
  rw [exec]; simp only [o10, c10, Thread.next]
  rw [exec]; simp only [o11, c11, Thread.next]
  rw [exec]; simp only [o12, c12]
  rfl

theorem exec_before (a : Nat) (d : Int) (f : Body) (n : Nat) (t : Thread) (ha : 8 ≤ a) (h : t.regs.nip = a - 4) :
    exec a d f (n + 14) t = some (trapT a (f (entryT a d t))) := by
  have o : ((a - 4 : Nat) : Int) - a = -4 := by omega
  have c : code d (-4) = some .nop := rfl
  rw [exec, h, o, c]
  simp only [Thread.next, h]
  rw [exec_label a d f n _ (by simp only; omega)]
  rfl

/-- What is left of r3 and r0 by the kernel. -/
theorem resume_redirect (r : Regs) (a : Nat) :
    ∃ r3 r0 nip, resume (redirect r a) = { redirect r a with r3 := r3, r0 := r0, nip := nip } ∧ (nip = a ∨ nip = a - 4) := by
  unfold resume
  cases he : (redirect r a).error with
  | none => exact ⟨_, _, _, rfl, .inl rfl⟩
  | some e =>
    simp only
    by_cases h1 : e = 512 ∨ e = 513 ∨ e = 514
    · rw [if_pos h1]; exact ⟨_, _, _, rfl, .inr rfl⟩
    · rw [if_neg h1]
      by_cases h2 : e = 516
      · rw [if_pos h2]; exact ⟨_, _, _, rfl, .inr rfl⟩
      · rw [if_neg h2]; exact ⟨_, _, _, rfl, .inl rfl⟩

theorem toc_eq (toc a : Nat) (d : Int) (ht : toc < 2 ^ 64) (h : (toc : Int) = a + d) (h1 : -2 ^ 31 ≤ d + 0x8000)
    (h2 : d + 0x8000 < 2 ^ 31) : wrap (wrap (a + sext (ha d) * 0x10000) + sext (lo d)) = toc := by
  unfold wrap sext ha lo
  split <;> split <;> omega

theorem sp_facts (r : Regs) (h : HasStack r) :
    ((Ptrace.redirectSp 512 (UInt64.ofNat r.r1)).toNat) % 64 = 0 ∧ (Ptrace.redirectSp 512 (UInt64.ofNat r.r1)).toNat + 512 ≤ r.r1 ∧
      r.r1 < (Ptrace.redirectSp 512 (UInt64.ofNat r.r1)).toNat + 512 + 64 := by
  have e : (UInt64.ofNat r.r1).toNat = r.r1 := UInt64.toNat_ofNat_of_lt' h.2
  have := Ptrace.C12_stack_below_red_zone 512 (UInt64.ofNat r.r1) (.inr rfl) (by
    rw [UInt64.le_iff_toNat_le, e]
    have := h.1
    show 512 ≤ r.r1
    omega)
  rw [e] at this
  exact this

/-- One routine: the thread that enters its function, and what is left at the trap. -/
theorem runOne_eq (toc : Nat) (saved : Regs) (a : Nat) (d : Int) (t : Thread) (hf : 8 ≤ a ∧ toc < 2 ^ 64 ∧ (toc : Int) = a + d ∧ -2 ^ 31 ≤ d + 0x8000 ∧ d + 0x8000 < 2 ^ 31)
    (hs : HasStack saved) : ∃ e : Thread, Entered toc e.regs ∧ e.regs.lr = a + 32 ∧ e.regs.r1 + 32 + 512 ≤ saved.r1 ∧
      saved.r1 < e.regs.r1 + 32 + 512 + 64 ∧ e.regs.other = saved.other ∧
      e.mem = (t.mem.store (e.regs.r1 + 32 + 16) (le 8 saved.lr)).store e.regs.r1 (le 8 (e.regs.r1 + 32)) ∧
      ∀ f : Body, runOne saved ⟨a, d, f⟩ t = some (trapT a (f e)) := by
  obtain ⟨h8, ht, hd, h1, h2⟩ := hf
  obtain ⟨r3, r0, nip, hr, hn⟩ := resume_redirect saved a
  obtain ⟨s1, s2, s3⟩ := sp_facts saved hs
  generalize hsp : (Ptrace.redirectSp 512 (UInt64.ofNat saved.r1)).toNat = sp at s1 s2 s3
  have hlow := hs.1
  have hr1 : (redirect saved a).r1 = sp := hsp
  have hsub : sp - 32 + 32 = sp := by omega
  refine ⟨entryT a d { t with regs := resume (redirect saved a) }, ?_, ?_, ?_, ?_, ?_, ?_, ?_⟩
  · rw [hr]
    refine ⟨toc_eq toc a d ht hd h1 h2, ?_⟩
    show ((redirect saved a).r1 - 32) % 16 = 0
    rw [hr1]; omega
  · rfl
  · rw [hr]; show (redirect saved a).r1 - 32 + 32 + 512 ≤ _; rw [hr1]; omega
  · rw [hr]; show _ < (redirect saved a).r1 - 32 + 32 + 512 + 64; rw [hr1]; omega
  · rw [hr]; rfl
  · rw [hr]
    show _ = (t.mem.store ((redirect saved a).r1 - 32 + 32 + 16) (le 8 saved.lr)).store ((redirect saved a).r1 - 32)
      (le 8 ((redirect saved a).r1 - 32 + 32))
    rw [hr1, hsub]
    simp only [entryT, hr1]
    rfl
  · intro f
    unfold runOne
    rcases hn with hn | hn
    · exact exec_label a d f 7 _ (by rw [hr]; exact hn)
    · exact exec_before a d f 6 _ h8 (by rw [hr]; exact hn)

/-- What is above the protected zone is untouched by a routine whose function obeys the ABI. -/
theorem runOne_mem (toc top : Nat) (saved : Regs) (c : Routine) (hc : Fits toc c) (ho : Obeys toc top c.body) (hs : HasStack saved)
    (t : Thread) : ∃ u, runOne saved c t = some u ∧ ∀ i, saved.r1 ≤ i + 488 → i < top → u.mem i = t.mem i := by
  obtain ⟨e, he, _, h1, h2, _, hm, hrun⟩ := runOne_eq toc saved c.at_ c.d t hc hs
  refine ⟨_, hrun c.body, ?_⟩
  intro i hi ht
  show (c.body e).mem i = t.mem i
  rw [(ho e he).2 i (by omega) ht, hm, store_out (by rw [le_length]; omega), store_out (by rw [le_length]; omega)]

theorem runAll_mem (toc top : Nat) (saved : Regs) (calls : List Routine) (hc : ∀ c ∈ calls, Fits toc c ∧ Obeys toc top c.body)
    (hs : HasStack saved) (t : Thread) :
    ∃ u, runAll saved calls t = some u ∧ ∀ i, saved.r1 ≤ i + 488 → i < top → u.mem i = t.mem i := by
  induction calls generalizing t with
  | nil => exact ⟨t, rfl, fun _ _ _ => rfl⟩
  | cons c cs ih =>
    obtain ⟨hf, ho⟩ := hc c List.mem_cons_self
    obtain ⟨u, hu, hm⟩ := runOne_mem toc top saved c hf ho hs t
    obtain ⟨v, hv, hn⟩ := ih (fun c h => hc c (List.mem_cons_of_mem _ h)) u
    exact ⟨v, by rw [runAll, hu]; exact hv, fun i h1 h2 => by rw [hn i h1 h2, hm i h1 h2]⟩

end Verif.PpcEntry
