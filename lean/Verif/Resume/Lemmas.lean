import Verif.Resume.Spec
import Verif.Ptrace.Props

namespace Verif.Resume


theorem off0 (a : UInt64) : ((a + 2 - 2) - a).toNat = 0 := by
  have : a + 2 - 2 - a = 0 := by grind
  rw [this]; rfl
theorem off1 (a : UInt64) : ((a + 2 - 2 + 1) - a).toNat = 1 := by
  have : a + 2 - 2 + 1 - a = 1 := by grind
  rw [this]; rfl
theorem off2' (a : UInt64) : ((a + 2 - 2 + 1 + 1) - a).toNat = 2 := by
  have : a + 2 - 2 + 1 + 1 - a = 2 := by grind
  rw [this]; rfl
theorem off2 (a : UInt64) : ((a + 2) - a).toNat = 2 := by
  have : a + 2 - a = 2 := by grind
  rw [this]; rfl
theorem off7 (a : UInt64) : ((a + 2 + 5) - a).toNat = 7 := by
  have : a + 2 + 5 - a = 7 := by grind
  rw [this]; rfl
theorem back2 (a : UInt64) : a + 2 - 2 + 1 + 1 = a + 2 := by grind

/-- From the call on. -/
theorem exec_call (a : UInt64) (f : Body) (n : Nat) (t : Thread) (h : t.regs.ip = a + 2) :
    ∃ r, exec a f (n + 2) t = some { f { t with regs := { t.regs with sp := t.regs.sp - 8 } } with regs := r } := by
  rw [exec, h, off2]
  simp only [Redirect.routineCode]
  rw [exec]
  simp only [off7, Redirect.routineCode]
  exact ⟨_, rfl⟩

/-- From the start. -/
theorem exec_start (a : UInt64) (f : Body) (n : Nat) (t : Thread) (h : t.regs.ip = a + 2 - 2) :
    ∃ r, exec a f (n + 4) t =
      some { f { t with regs := { t.regs with ip := a + 2, sp := t.regs.sp - 8 } } with regs := r } := by
  obtain ⟨r, hr⟩ := exec_call a f n { t with regs := { t.regs with ip := a + 2 } } rfl
  refine ⟨r, ?_⟩
  rw [exec, h, off0]
  simp only [Redirect.routineCode]
  rw [exec]
  simp only [off1, Redirect.routineCode]
  rw [back2]
  exact hr

/-- The registers with which the function that a routine calls is entered. -/
def entry (saved : Regs) (routine : UInt64) : Regs :=
  { saved with
    ip := routine + 2
    sp := Ptrace.redirectSp 128 saved.sp - 8
    ax := (resume saved).ax }

theorem runOne_eq (saved : Regs) (a : UInt64) (f : Body) (t : Thread) :
    ∃ r, runOne saved (a, f) t = some { f { t with regs := entry saved a } with regs := r } := by
  unfold runOne entry resume redirect
  simp only
  by_cases h1 : saved.orig = 0 - 1
  · simp only [h1, if_true]
    obtain ⟨r, hr⟩ := exec_call a f 3 { t with regs := { saved with ip := a + 2, sp := Ptrace.redirectSp 128 saved.sp, orig := 0 - 1 } } rfl
    exact ⟨r, hr⟩
  · simp only [h1, if_false]
    by_cases h2 : saved.ax = 0 - 512 ∨ saved.ax = 0 - 513 ∨ saved.ax = 0 - 514
    · simp only [h2, if_true]
      obtain ⟨r, hr⟩ := exec_start a f 1 { t with regs := { saved with ax := saved.orig, ip := a + 2 - 2, sp := Ptrace.redirectSp 128 saved.sp } } rfl
      exact ⟨r, hr⟩
    · simp only [h2, if_false]
      by_cases h3 : saved.ax = 0 - 516
      · simp only [h3, if_true]
        obtain ⟨r, hr⟩ := exec_start a f 1 { t with regs := { saved with ax := 219, ip := a + 2 - 2, sp := Ptrace.redirectSp 128 saved.sp } } rfl
        exact ⟨r, hr⟩
      · simp only [h3, if_false]
        obtain ⟨r, hr⟩ := exec_call a f 3 { t with regs := { saved with ip := a + 2, sp := Ptrace.redirectSp 128 saved.sp } } rfl
        exact ⟨r, hr⟩

theorem runAll_some (saved : Regs) (calls : List (UInt64 × Body)) (t : Thread) : ∃ u, runAll saved calls t = some u := by
  induction calls generalizing t with
  | nil => exact ⟨t, rfl⟩
  | cons c cs ih =>
    obtain ⟨r, hr⟩ := runOne_eq saved c.1 c.2 t
    obtain ⟨u, hu⟩ := ih { c.2 { t with regs := entry saved c.1 } with regs := r }
    exact ⟨u, by rw [runAll, show c = (c.1, c.2) from rfl, hr]; exact hu⟩

/-- What the functions leave alone, all of it leaves alone. -/
theorem runAll_keeps {α : Type} (g : Thread → α) (hg : ∀ t r, g { t with regs := r } = g t) (saved : Regs)
    (calls : List (UInt64 × Body)) (hk : ∀ c ∈ calls, ∀ t, g (c.2 t) = g t) (t u : Thread) (h : runAll saved calls t = some u) :
    g u = g t := by
  induction calls generalizing t with
  | nil => rw [runAll] at h; injection h with h; rw [h]
  | cons c cs ih =>
    obtain ⟨r, hr⟩ := runOne_eq saved c.1 c.2 t
    rw [runAll, show c = (c.1, c.2) from rfl, hr] at h
    rw [ih (fun c hc => hk c (List.mem_cons_of_mem _ hc)) _ h, hg, hk c List.mem_cons_self, hg]

theorem livePatch_regs (calls : List (UInt64 × Body)) (t : Thread) :
    ∃ u, livePatch calls t = some u ∧ u.regs = resume t.regs := by
  obtain ⟨u, hu⟩ := runAll_some t.regs calls t
  exact ⟨{ u with regs := resume t.regs }, by rw [livePatch, hu], rfl⟩

end Verif.Resume
