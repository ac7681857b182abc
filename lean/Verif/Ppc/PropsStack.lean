import Verif.Ppc.Shadow

/-! C47 (shadow stack), C60 (arguments and results), C61 (non-local exits), C62 (signal handlers), C63 (threads that exit):
the trampoline of POWER. -/

namespace Verif.Ppc

/-! ### C47 -/

/-- C47: however a thread calls livepatched functions and returns from them, to any depth and over any number of growths of
the shadow stack, every return is to the return address, and with the TOC pointer, of its own call. -/
theorem C47_returns_to_caller (E : Env) (tls : St → St → Prop) (htls : ∀ a b, tls a b → TlsCall E a b) (s0 : St)
    (h0 : Started E s0) (t : Thread) (h : TSteps E tls ⟨s0, [], []⟩ t) (e x : St) (hx : (e, x) ∈ t.over) :
    x.r 2 = e.r 2 ∧ x.lr = e.lr :=
  (tsteps_inv htls h (started_inv h0)).over e x hx

/-- C47, and the stack pointer, the return value and the registers that a function has to preserve are those the new
function left, and its caller's memory too. -/
theorem C47_return_is_transparent (E : Env) (tls : St → St → Prop) (htls : ∀ a b, tls a b → TlsCall E a b) (s0 : St)
    (h0 : Started E s0) (s : St) (e : St) (o : List St) (d : List (St × St))
    (h : TSteps E tls ⟨s0, [], []⟩ ⟨s, e :: o, d⟩) (f : Int) (hr : Room E f s) (x : St) (hl : Leave E tls s x) :
    x.r 1 = s.r 1 ∧ x.r 3 = s.r 3 ∧ (∀ i, 13 ≤ i → x.r i = s.r i)
      ∧ (∀ a, a < E.lo ∨ s.r 1 ≤ a → a ≠ E.ulp + 8 → x.mem a = s.mem a) := by
  obtain ⟨h1, h2, -⟩ := tsteps_inv htls h (started_inv h0)
  have h2' : Holds E s.mem (shadowOf o ++ [(e.r 2, e.lr)]) := by simpa [shadowOf] using h2
  obtain ⟨l1, -⟩ := leave_spec htls hr h1 h2' hl
  exact ⟨l1.sp, l1.r3, l1.nonvol, l1.frame⟩

/-- `__tls_get_addr` by its short path. -/
def shortTls (E : Env) (a b : St) : Prop := b = a.set 3 E.ulp

theorem shortTls_call (E : Env) (a b : St) (h : shortTls E a b) : TlsCall E a b ∧ Gentle a b := by
  subst h
  refine ⟨⟨⟨?_, ?_, fun _ _ => rfl⟩, ?_⟩, ⟨?_, ?_, rfl⟩⟩
  · simp [St.set]
  · intro i hi
    have : i ≠ 3 := by omega
    simp [St.set, this]
  · simp [St.set]
  · simp [St.set]
  · intro i h1 _
    have : i ≠ 3 := by omega
    simp [St.set, this]

def demoEnv : Env := { ulp := 800, lo := 10000, hi := 90000, toc := 5000, tlsArg := 5008, tramp := 4096, pg := 65536 }
def demoSt : St := { r := fun i => if i = 1 then 50000 else 100 + i, lr := 7777, ctr := 0, mem := fun a => if a = 3992 then 6000 else 0 }

theorem fresh_exists (E : Env) (m : Int → Int) (hlh : E.lo ≤ E.hi) : ∃ B, Fresh E B m := by
  refine ⟨E.hi.natAbs + E.ulp.natAbs + 24 + (m (E.ulp + 16)).natAbs + (m E.ulp).natAbs + 1, by omega, ?_, ?_, ?_⟩
  · unfold Apart; omega
  · unfold Apart; omega
  · intro _; unfold Apart; omega

theorem enter_short (E : Env) (hlh : E.lo ≤ E.hi) (f : Int) (s : St) : ∃ s', Enter E (shortTls E) f s s' := by
  obtain ⟨B, hB⟩ := fresh_exists E (run expandPre (run seg2 ((run (seg1 E f) s).set 3 E.ulp))).mem hlh
  exact enter_exists rfl hB

theorem leave_short (E : Env) (s : St) : ∃ s', Leave E (shortTls E) s s' := ⟨_, _, rfl, rfl⟩

theorem demo_started : Started demoEnv demoSt :=
  ⟨by unfold Apart demoEnv; simp, by simp [demoEnv], by simp [demoEnv], by simp [demoSt, demoEnv]⟩

theorem demo_room : Room demoEnv 4000 demoSt :=
  ⟨by simp [demoEnv, demoSt], by simp [demoEnv, demoSt], by simp [demoEnv]⟩

theorem quiet_refl (E : Env) (s : St) : Quiet E s s := ⟨fun _ _ _ => rfl, fun _ _ _ => rfl⟩

/-- The hypotheses can be met: a new thread, and a call of a livepatched function in it with a growth (from nothing), which
calls itself (which is then all over, with its returns). -/
example : ∃ t : Thread, TSteps demoEnv (shortTls demoEnv) ⟨demoSt, [], []⟩ t ∧ t.over.length = 2 ∧ t.open_ = [] := by
  have htls : ∀ a b, shortTls demoEnv a b → TlsCall demoEnv a b := fun a b h => (shortTls_call _ a b h).1
  have hlh : demoEnv.lo ≤ demoEnv.hi := demo_started.lohi
  obtain ⟨s1, h1⟩ := enter_short demoEnv hlh 4000 demoSt
  have i0 := started_inv demo_started
  obtain ⟨e1, -⟩ := enter_spec htls demo_room i0.ok i0.holds h1
  have r1 : Room demoEnv 4000 s1 := ⟨by rw [e1.sp]; exact demo_room.lo, by rw [e1.sp]; exact demo_room.hi, demo_room.site⟩
  obtain ⟨s2, h2⟩ := enter_short demoEnv hlh 4000 s1
  obtain ⟨e2, -⟩ := enter_spec htls r1 e1.ok e1.holds h2
  have r2 : Room demoEnv 4000 s2 := ⟨by rw [e2.sp]; exact r1.lo, by rw [e2.sp]; exact r1.hi, demo_room.site⟩
  obtain ⟨s3, h3⟩ := leave_short demoEnv s2
  obtain ⟨l3, -⟩ := leave_spec htls r2 e2.ok e2.holds h3
  have r3 : Room demoEnv 4000 s3 := ⟨by rw [l3.sp]; exact r2.lo, by rw [l3.sp]; exact r2.hi, demo_room.site⟩
  obtain ⟨s4, h4⟩ := leave_short demoEnv s3
  exact ⟨⟨s4, [], [(demoSt, s4), (s1, s3)]⟩,
    .tail (.tail (.tail (.tail (.refl _) (.enter demo_room h1)) (.enter r1 h2)) (.leave r2 h3)) (.leave r3 h4), rfl, rfl⟩

/-! ### C60 -/

/-- C60 for a `__tls_get_addr` that preserves the argument registers and the count register, which the ABI does not ask of
it: the new function is reached, with its own address in r12, all arguments in registers and on the stack and the stack
pointer as the caller left them.  Missing, and false (see below): a `__tls_get_addr` that does what the ABI allows. -/
theorem C60_arguments_partial (E : Env) (tls : St → St → Prop) (htls : ∀ a b, tls a b → TlsCall E a b ∧ Gentle a b)
    (s0 : St) (h0 : Started E s0) (s : St) (o : List St) (d : List (St × St)) (h : TSteps E tls ⟨s0, [], []⟩ ⟨s, o, d⟩)
    (f : Int) (hr : Room E f s) (x : St) (he : Enter E tls f s x) :
    x.ctr = s.mem (f - 8) ∧ x.r 12 = s.mem (f - 8) ∧ (∀ i, 3 ≤ i → i ≤ 11 → x.r i = s.r i) ∧ x.r 1 = s.r 1
      ∧ (∀ i, 13 ≤ i → x.r i = s.r i)
      ∧ (∀ a, a < E.lo ∨ s.r 1 ≤ a → ¬ (E.ulp ≤ a ∧ a < E.ulp + 24) →
          ¬ (x.mem (E.ulp + 16) ≤ a ∧ a < x.mem (E.ulp + 16) + x.mem E.ulp) → x.mem a = s.mem a) := by
  have htls' : ∀ a b, tls a b → TlsCall E a b := fun a b h => (htls a b h).1
  obtain ⟨h1, h2, -⟩ := tsteps_inv htls' h (started_inv h0)
  obtain ⟨e1, e2⟩ := enter_spec htls' hr h1 h2 he
  have k := e2 fun a b h => (htls a b h).2
  refine ⟨k.ctr, by rw [e1.r12, k.ctr], ?_, e1.sp, e1.nonvol, e1.frame⟩
  intro i h3 h4
  have : i = 3 ∨ i = 4 ∨ i = 5 ∨ i = 6 ∨ 7 ≤ i := by omega
  rcases this with rfl | rfl | rfl | rfl | h5
  · exact e1.r3
  · exact k.r4
  · exact e1.r5
  · exact e1.r6
  · exact k.args i h5 h4

/-- The same for results in two registers (r3 and r4). -/
theorem C60_results_partial (E : Env) (tls : St → St → Prop) (htls : ∀ a b, tls a b → TlsCall E a b ∧ Gentle a b)
    (s0 : St) (h0 : Started E s0) (s e : St) (o : List St) (d : List (St × St))
    (h : TSteps E tls ⟨s0, [], []⟩ ⟨s, e :: o, d⟩) (f : Int) (hr : Room E f s) (x : St) (hl : Leave E tls s x) :
    x.r 3 = s.r 3 ∧ x.r 4 = s.r 4 := by
  have htls' : ∀ a b, tls a b → TlsCall E a b := fun a b h => (htls a b h).1
  obtain ⟨h1, h2, -⟩ := tsteps_inv htls' h (started_inv h0)
  have h2' : Holds E s.mem (shadowOf o ++ [(e.r 2, e.lr)]) := by simpa [shadowOf] using h2
  obtain ⟨l1, l2⟩ := leave_spec htls' hr h1 h2' hl
  exact ⟨l1.r3, l2 fun a b h => (htls a b h).2⟩

/-- The negation: with a `__tls_get_addr` that the ABI allows, the trampoline may jump to any address with any value in the
second argument register; for every state with room in the shadow stack. -/
theorem C60_any_jump (E : Env) (f : Int) (s : St) (l : List (Int × Int)) (hok : Ok E s.mem) (hl : Holds E s.mem l)
    (hr : Room E f s) (hfree : s.mem (E.ulp + 8) < s.mem E.ulp) (v w : Int) :
    ∃ x, Enter E (TlsCall E) f s x ∧ x.ctr = v ∧ x.r 4 = w := by
  let p := run (seg1 E f) s
  let s1 : St := { p with r := fun i => if i = 3 then E.ulp else if i = 4 then w else p.r i, ctr := v }
  have ht : TlsCall E p s1 := by
    refine ⟨⟨by simp [s1], ?_, fun _ _ => rfl⟩, by simp [s1]⟩
    intro i hi
    have : i ≠ 3 ∧ i ≠ 4 := by omega
    simp [s1, this]
  obtain ⟨a1, a2, a3, a4, a5, a6, -⟩ := enter_a hr hok hl ht
  have hu := hok.ulp
  have h1 := hr.lo
  have h2 := hr.hi
  unfold Apart at hu
  have hc : ¬ (run seg2 s1).r 6 ≤ (run seg2 s1).r 5 := by
    rw [a4, a5, a6 _ (by omega), a6 _ (by omega)]; omega
  refine ⟨run cont (run seg2 s1), ⟨s1, ht, by rw [if_neg hc]⟩, ?_, ?_⟩
  · simp [run, cont, seg2, step, St.set, St.store, s1]
  · simp [run, cont, seg2, step, St.set, St.store, s1]

/-! ### C61 -/

/-- C61, the negation: a livepatched function `g`, called at `sg`, calls a livepatched function `f`, at `sf`, out of which
there is a non-local exit (`longjmp`, an exception) into `g`, which other code cannot be distinguished from.  Then `g` does
not return to its caller: it returns behind the call of `f`. -/
theorem C61_longjmp_misreturns (E : Env) (tls : St → St → Prop) (htls : ∀ a b, tls a b → TlsCall E a b) (s0 : St)
    (h0 : Started E s0) (sg sg' sf sf' back x : St) (d : List (St × St)) (g f : Int)
    (h : TSteps E tls ⟨s0, [], []⟩ ⟨sg, [], d⟩)
    (rg : Room E g sg) (eg : Enter E tls g sg sg') (qg : Quiet E sg' sf)
    (rf : Room E f sf) (ef : Enter E tls f sf sf') (jump : Quiet E sf' back)
    (rb : Room E g back) (lv : Leave E tls back x) :
    x.r 2 = sf.r 2 ∧ x.lr = sf.lr := by
  have hs : TSteps E tls ⟨s0, [], []⟩ ⟨back, [sf, sg], d⟩ :=
    .tail (.tail (.tail (.tail h (.enter rg eg)) (.quiet qg)) (.enter rf ef)) (.quiet jump)
  exact C47_returns_to_caller E tls htls s0 h0 _ (hs.tail (.leave rb lv)) sf x (by simp)

/-- The hypotheses can be met, and the return is to a wrong address then. -/
example : ∃ sg' sf' x, Enter demoEnv (shortTls demoEnv) 4000 demoSt sg'
    ∧ Room demoEnv 4000 { sg' with lr := 4444 } ∧ Enter demoEnv (shortTls demoEnv) 4000 { sg' with lr := 4444 } sf'
    ∧ Room demoEnv 4000 sf' ∧ Leave demoEnv (shortTls demoEnv) sf' x ∧ x.lr = 4444 ∧ demoSt.lr = 7777 := by
  have htls : ∀ a b, shortTls demoEnv a b → TlsCall demoEnv a b := fun a b h => (shortTls_call _ a b h).1
  have hlh : demoEnv.lo ≤ demoEnv.hi := demo_started.lohi
  obtain ⟨s1, h1⟩ := enter_short demoEnv hlh 4000 demoSt
  have i0 := started_inv demo_started
  obtain ⟨e1, -⟩ := enter_spec htls demo_room i0.ok i0.holds h1
  have r1 : Room demoEnv 4000 { s1 with lr := 4444 } :=
    ⟨by simp only [e1.sp]; exact demo_room.lo, by simp only [e1.sp]; exact demo_room.hi, demo_room.site⟩
  obtain ⟨s2, h2⟩ := enter_short demoEnv hlh 4000 { s1 with lr := 4444 }
  obtain ⟨e2, -⟩ := enter_spec htls r1 e1.ok e1.holds h2
  have r2 : Room demoEnv 4000 s2 := ⟨by rw [e2.sp]; exact r1.lo, by rw [e2.sp]; exact r1.hi, demo_room.site⟩
  obtain ⟨s3, h3⟩ := leave_short demoEnv s2
  have := C61_longjmp_misreturns demoEnv _ htls demoSt demo_started demoSt s1 { s1 with lr := 4444 } s2 s2 s3 [] 4000 4000
    (.refl _) demo_room h1 ⟨fun _ _ _ => rfl, fun _ _ _ => rfl⟩ r1 h2 (quiet_refl _ _) r2 h3
  exact ⟨s1, s2, s3, h1, r1, h2, r2, h3, this.2, rfl⟩

/-- C61 for exits that leave no call of a livepatched function behind: they are other code to the trampoline, and all
returns stay right (C47).  Missing, and false: exits out of livepatched functions. -/
theorem C61_partial (E : Env) (tls : St → St → Prop) (htls : ∀ a b, tls a b → TlsCall E a b) (s0 : St)
    (h0 : Started E s0) (s back x : St) (e : St) (o : List St) (d : List (St × St))
    (h : TSteps E tls ⟨s0, [], []⟩ ⟨s, e :: o, d⟩) (jump : Quiet E s back) (f : Int) (rb : Room E f back)
    (lv : Leave E tls back x) : x.r 2 = e.r 2 ∧ x.lr = e.lr :=
  C47_returns_to_caller E tls htls s0 h0 _ ((h.tail (.quiet jump)).tail (.leave rb lv)) e x (by simp)

/-! ### C62 -/

/-- C62 for handlers that run while the thread is not in the trampoline: whatever livepatched functions the handler calls
(all of them are over when it returns), the interrupted calls return to their callers.  Missing, and false (see below):
handlers that run within the trampoline. -/
theorem C62_handler_outside_partial (E : Env) (tls : St → St → Prop) (htls : ∀ a b, tls a b → TlsCall E a b) (s0 : St)
    (h0 : Started E s0) (s h1 : St) (o : List St) (d d' : List (St × St))
    (h : TSteps E tls ⟨s0, [], []⟩ ⟨s, o, d⟩) (handler : TSteps E tls ⟨s, o, d⟩ ⟨h1, o, d'⟩)
    (t : Thread) (rest : TSteps E tls ⟨{ s with mem := h1.mem }, o, d'⟩ t) (e x : St) (hx : (e, x) ∈ t.over) :
    x.r 2 = e.r 2 ∧ x.lr = e.lr := by
  have i1 := tsteps_inv htls handler (tsteps_inv htls h (started_inv h0))
  have i2 : TInv E ⟨{ s with mem := h1.mem }, o, d'⟩ := ⟨i1.ok, i1.holds, i1.over⟩
  exact (tsteps_inv htls rest i2).over e x hx

/-- C62, the negation: the thread returns from a livepatched function, and has just stored the new used size
(`leave2`).  A signal handler runs now, which calls a livepatched function from `hs`.  When the thread goes on, it does not
return to its own caller, but behind the call in the handler. -/
theorem C62_handler_in_window (E : Env) (tls : St → St → Prop) (htls : ∀ a b, tls a b → TlsCall E a b)
    (s s1 : St) (l : List (Int × Int)) (t a : Int) (hok : Ok E s.mem) (hl : Holds E s.mem (l ++ [(t, a)]))
    (f : Int) (hr : Room E f s) (ht : tls (run (leave1 E) s) s1)
    (hs hs1 hs2 hs3 hs4 : St) (g : Int) (q1 : Quiet E (run leave2 s1) hs) (rg : Room E g hs) (eg : Enter E tls g hs hs1)
    (q2 : Quiet E hs1 hs2) (rg2 : Room E g hs2) (lg : Leave E tls hs2 hs3) (q3 : Quiet E hs3 hs4) :
    (run leave3 { run leave2 s1 with mem := hs4.mem }).r 2 = hs.r 2
      ∧ (run leave3 { run leave2 s1 with mem := hs4.mem }).lr = hs.lr := by
  -- at the interruption the shadow stack holds `l`
  obtain ⟨l1, -⟩ := leave_spec htls hr hok hl ⟨s1, ht, rfl⟩
  have hm : (run leave3 (run leave2 s1)).mem = (run leave2 s1).mem := (leave3_spec _).2.1
  have okw := l1.ok
  have hw := l1.holds
  rw [hm] at okw hw
  obtain ⟨k1, k2⟩ := ok_holds_congr okw hw q1.ulp q1.buf
  obtain ⟨e1, -⟩ := enter_spec htls rg k1 k2 eg
  obtain ⟨k3, k4⟩ := ok_holds_congr e1.ok e1.holds q2.ulp q2.buf
  obtain ⟨l2, -⟩ := leave_spec htls rg2 k3 k4 lg
  have hent := k4.entry l.length (hs.r 2, hs.lr) (by simp)
  have hu := k4.used
  simp only [List.length_append, List.length_cons, List.length_nil] at hu
  have hus := k3.used
  have hst := k3.bufStack (by omega)
  have hul := k3.bufUlp (by omega)
  have hulp := k3.ulp
  have hlo := rg2.lo
  have hhi := rg2.hi
  unfold Apart at hst hul hulp
  have f0 : hs3.mem E.ulp = hs2.mem E.ulp := l2.frame _ (by omega) (by omega)
  have f16 : hs3.mem (E.ulp + 16) = hs2.mem (E.ulp + 16) := l2.frame _ (by omega) (by omega)
  have g16 : hs4.mem (E.ulp + 16) = hs2.mem (E.ulp + 16) := by rw [q3.ulp _ (by omega) (by omega), f16]
  have gbuf : ∀ a, hs2.mem (E.ulp + 16) ≤ a → a < hs2.mem (E.ulp + 16) + hs2.mem E.ulp → hs4.mem a = hs2.mem a := by
    intro a h1 h2
    rw [q3.buf a (by omega) (by omega), l2.frame a (by omega) (by omega)]
  obtain ⟨c1, c2, c3, c4, -⟩ := leave3_spec { run leave2 s1 with mem := hs4.mem }
  have r3 : (run leave2 s1).r 3 = E.ulp := by rw [(leave2_spec s1).2.1 3 (by omega), (htls _ _ ht).ret]
  have r6 : (run leave2 s1).r 6 = 16 * l.length := by
    have h8 := hw.used
    rw [← h8, (leave2_spec s1).1, ← (leave2_spec s1).2.2.1, (htls _ _ ht).ret]
  rw [c3, c4]
  simp only [r3, r6]
  rw [g16, gbuf _ (by omega) (by omega), gbuf _ (by omega) (by omega)]
  exact hent

/-- The hypotheses can be met: after one call, the return is interrupted by a handler that makes another. -/
example : ∃ s s1 hs1 hs3, Ok demoEnv s.mem ∧ Holds demoEnv s.mem ([] ++ [(demoSt.r 2, demoSt.lr)]) ∧ Room demoEnv 4000 s
    ∧ shortTls demoEnv (run (leave1 demoEnv) s) s1 ∧ Room demoEnv 4000 { run leave2 s1 with lr := 4444 }
    ∧ Enter demoEnv (shortTls demoEnv) 4000 { run leave2 s1 with lr := 4444 } hs1 ∧ Leave demoEnv (shortTls demoEnv) hs1 hs3
    ∧ (run leave3 { run leave2 s1 with mem := hs3.mem }).lr = 4444 := by
  have htls : ∀ a b, shortTls demoEnv a b → TlsCall demoEnv a b := fun a b h => (shortTls_call _ a b h).1
  have hlh : demoEnv.lo ≤ demoEnv.hi := demo_started.lohi
  obtain ⟨s, h1⟩ := enter_short demoEnv hlh 4000 demoSt
  have i0 := started_inv demo_started
  obtain ⟨e1, -⟩ := enter_spec htls demo_room i0.ok i0.holds h1
  have r1 : Room demoEnv 4000 s := ⟨by rw [e1.sp]; exact demo_room.lo, by rw [e1.sp]; exact demo_room.hi, demo_room.site⟩
  let s1 := (run (leave1 demoEnv) s).set 3 demoEnv.ulp
  have sp1 : (run leave2 s1).r 1 = 50000 - 56 := by
    rw [(leave2_spec s1).2.1 1 (by omega)]
    have : s1.r 1 = (run (leave1 demoEnv) s).r 1 := by simp [s1, St.set]
    rw [this, (leave1_spec demoEnv s).1, e1.sp]; rfl
  have rw1 : Room demoEnv 4000 { run leave2 s1 with lr := 4444 } :=
    ⟨by simp only [sp1, demoEnv]; omega, by simp only [sp1, demoEnv]; omega, demo_room.site⟩
  obtain ⟨hs1, h2⟩ := enter_short demoEnv hlh 4000 { run leave2 s1 with lr := 4444 }
  obtain ⟨hs3, h3⟩ := leave_short demoEnv hs1
  -- the handler's call leaves the stack pointer where it was
  obtain ⟨l1, -⟩ := leave_spec htls r1 e1.ok e1.holds ⟨s1, rfl, rfl⟩
  have hm : (run leave3 (run leave2 s1)).mem = (run leave2 s1).mem := (leave3_spec _).2.1
  have okw := l1.ok
  have hw := l1.holds
  rw [hm] at okw hw
  obtain ⟨e2, -⟩ := enter_spec htls rw1 okw hw h2
  have r2 : Room demoEnv 4000 hs1 := ⟨by rw [e2.sp]; exact rw1.lo, by rw [e2.sp]; exact rw1.hi, demo_room.site⟩
  have := C62_handler_in_window demoEnv _ htls s s1 [] (demoSt.r 2) demoSt.lr e1.ok e1.holds 4000 r1 rfl
    { run leave2 s1 with lr := 4444 } hs1 hs1 hs3 hs3 4000 ⟨fun _ _ _ => rfl, fun _ _ _ => rfl⟩ rw1 h2 (quiet_refl _ _) r2 h3
    (quiet_refl _ _)
  exact ⟨s, s1, hs1, hs3, e1.ok, e1.holds, r1, rfl, rw1, h2, h3, this.2⟩

/-! ### C63 -/

/-- What of a thread and the process matters to freeing the shadow stack: whether the key exists, the thread's value of the
key, the thread's buffer, and all mappings. -/
structure Tsd where
  key : Bool
  value : Nat
  buf : Option (Nat × Nat)
  mapped : List (Nat × Nat)

/-- `ulp_stack_helper`, lib/arch/powerpc64le/patch.c:266-322: a new mapping instead of the old one; `pthread_once` creates the key
with its destructor.  Nothing in libpulp calls `pthread_setspecific`. -/
def Tsd.grow (t : Tsd) (base pg : Nat) : Tsd :=
  let size := match t.buf with | some (_, n) => (n + pg) * 2 | none => pg * 2
  let rest := match t.buf with | some b => t.mapped.erase b | none => t.mapped
  { t with key := true, buf := some (base, size), mapped := (base, size) :: rest }

/-- The end of a thread: POSIX runs the destructor (`ulp_stack_cleanup`, lib/arch/powerpc64le/patch.c:235-248) of a key whose
value in this thread is not NULL. -/
def Tsd.exit (t : Tsd) : Tsd :=
  if t.key ∧ t.value ≠ 0 then
    match t.buf with
    | some b => { t with buf := none, mapped := t.mapped.erase b }
    | none => t
  else t

/-- C63, the negation: whenever a thread ends that has ever called a livepatched function, its buffer stays mapped. -/
theorem C63_never_freed (grows : List (Nat × Nat)) (hg : grows ≠ []) (key : Bool) (mapped : List (Nat × Nat)) :
    let t : Tsd := grows.foldl (fun (t : Tsd) g => t.grow g.1 g.2) ⟨key, 0, none, mapped⟩
    ∃ b, t.buf = some b ∧ b ∈ t.exit.mapped := by
  have hv : ∀ (gs : List (Nat × Nat)) (t0 : Tsd), t0.value = 0 → (gs.foldl (fun t g => t.grow g.1 g.2) t0).value = 0 := by
    intro gs
    induction gs with
    | nil => exact fun t0 h => h
    | cons g gs ih => exact fun t0 h => ih _ (by simpa [Tsd.grow] using h)
  have hb : ∀ (gs : List (Nat × Nat)) (t0 : Tsd), (∃ b, t0.buf = some b ∧ b ∈ t0.mapped) →
      ∃ b, (gs.foldl (fun t g => t.grow g.1 g.2) t0).buf = some b ∧ b ∈ (gs.foldl (fun t g => t.grow g.1 g.2) t0).mapped := by
    intro gs
    induction gs with
    | nil => exact fun t0 h => h
    | cons g gs ih => exact fun t0 _ => ih _ ⟨_, rfl, by simp [Tsd.grow]⟩
  intro t
  have h1 : t.value = 0 := hv grows _ rfl
  have h2 : ∃ b, t.buf = some b ∧ b ∈ t.mapped := by
    cases grows with
    | nil => exact absurd rfl hg
    | cons g gs => exact hb gs _ ⟨_, rfl, by simp [Tsd.grow]⟩
  have h3 : t.exit = t := by unfold Tsd.exit; rw [if_neg (by simp [h1])]
  rw [h3]
  exact h2

/-- C63 for threads that never called a livepatched function: nothing is mapped for them. -/
theorem C63_partial (key : Bool) (mapped : List (Nat × Nat)) :
    (Tsd.exit { key := key, value := 0, buf := none, mapped := mapped }).mapped = mapped := by
  simp [Tsd.exit]

/-! ### Further concrete cases -/

theorem shortTls_demo (a b : St) (h : shortTls demoEnv a b) : TlsCall demoEnv a b := (shortTls_call _ a b h).1

/-- A livepatched function called by a new thread, which calls itself and returns twice. -/
theorem demo_nested : ∃ s1 s2 s3 s4, TSteps demoEnv (shortTls demoEnv) ⟨demoSt, [], []⟩ ⟨s1, [demoSt], []⟩
    ∧ Room demoEnv 4000 s1 ∧ Enter demoEnv (shortTls demoEnv) 4000 s1 s2
    ∧ TSteps demoEnv (shortTls demoEnv) ⟨s1, [demoSt], []⟩ ⟨s2, [s1, demoSt], []⟩
    ∧ Room demoEnv 4000 s2 ∧ Leave demoEnv (shortTls demoEnv) s2 s3
    ∧ Room demoEnv 4000 s3 ∧ Leave demoEnv (shortTls demoEnv) s3 s4 := by
  have hlh : demoEnv.lo ≤ demoEnv.hi := demo_started.lohi
  obtain ⟨s1, h1⟩ := enter_short demoEnv hlh 4000 demoSt
  have i0 := started_inv demo_started
  obtain ⟨e1, -⟩ := enter_spec shortTls_demo demo_room i0.ok i0.holds h1
  have r1 : Room demoEnv 4000 s1 := ⟨by rw [e1.sp]; exact demo_room.lo, by rw [e1.sp]; exact demo_room.hi, demo_room.site⟩
  obtain ⟨s2, h2⟩ := enter_short demoEnv hlh 4000 s1
  obtain ⟨e2, -⟩ := enter_spec shortTls_demo r1 e1.ok e1.holds h2
  have r2 : Room demoEnv 4000 s2 := ⟨by rw [e2.sp]; exact r1.lo, by rw [e2.sp]; exact r1.hi, demo_room.site⟩
  obtain ⟨s3, h3⟩ := leave_short demoEnv s2
  obtain ⟨l3, -⟩ := leave_spec shortTls_demo r2 e2.ok e2.holds h3
  have r3 : Room demoEnv 4000 s3 := ⟨by rw [l3.sp]; exact r2.lo, by rw [l3.sp]; exact r2.hi, demo_room.site⟩
  obtain ⟨s4, h4⟩ := leave_short demoEnv s3
  exact ⟨s1, s2, s3, s4, .tail (.refl _) (.enter demo_room h1), r1, h2, .tail (.refl _) (.enter r1 h2), r2, h3, r3, h4⟩

theorem tsteps_trans {E tls a b c} (h : TSteps E tls a b) (h' : TSteps E tls b c) : TSteps E tls a c := by
  induction h' with
  | refl => exact h
  | tail _ st ih => exact ih.tail st

/-- Both returns, the arguments of the inner call, its result. -/
example : ∃ s1 s2 s3 s4 : St, TSteps demoEnv (shortTls demoEnv) ⟨demoSt, [], []⟩ ⟨s4, [], [(demoSt, s4), (s1, s3)]⟩
    ∧ s4.lr = 7777 ∧ s3.lr = s1.lr ∧ s3.r 3 = s2.r 3 ∧ s3.r 4 = s2.r 4 ∧ s2.r 3 = s1.r 3 ∧ s2.r 12 = s1.mem 3992 := by
  obtain ⟨s1, s2, s3, s4, t1, r1, h2, t2, r2, h3, r3, h4⟩ := demo_nested
  have t := tsteps_trans t1 t2
  have t' := (t.tail (.leave r2 h3)).tail (.leave r3 h4)
  have a := C60_arguments_partial demoEnv _ (shortTls_call demoEnv) demoSt demo_started s1 _ _ t1 4000 r1 s2 h2
  have b := C60_results_partial demoEnv _ (shortTls_call demoEnv) demoSt demo_started s2 _ _ _ t 4000 r2 s3 h3
  refine ⟨s1, s2, s3, s4, t', ?_, ?_, ?_, b.2, a.2.2.1 3 (by decide) (by decide), a.2.1⟩
  · exact (C47_returns_to_caller demoEnv _ shortTls_demo demoSt demo_started _ t' demoSt s4 (by simp)).2
  · exact (C47_returns_to_caller demoEnv _ shortTls_demo demoSt demo_started _ t' s1 s3 (by simp)).2
  · exact (C47_return_is_transparent demoEnv _ shortTls_demo demoSt demo_started s2 _ _ _ t 4000 r2 s3 h3).2.1

/-- The function is left by `longjmp` to itself, to an earlier point of it with other registers, and then returns. -/
example : ∃ s1 x : St, Leave demoEnv (shortTls demoEnv) { s1 with r := fun i => if i = 1 then s1.r 1 else 5 } x ∧ x.lr = 7777 := by
  obtain ⟨s1, s2, s3, s4, t1, r1, -⟩ := demo_nested
  obtain ⟨x, hx⟩ := leave_short demoEnv { s1 with r := fun i => if i = 1 then s1.r 1 else 5 }
  exact ⟨s1, x, hx, (C61_partial demoEnv _ shortTls_demo demoSt demo_started s1
    { s1 with r := fun i => if i = 1 then s1.r 1 else 5 } x demoSt [] [] t1
    ⟨fun _ _ _ => rfl, fun _ _ _ => rfl⟩ 4000 ⟨by simpa using r1.lo, by simpa using r1.hi, r1.site⟩ hx).2⟩

/-- A signal comes while the function runs, and the handler calls it. -/
example : ∃ s1 s3 x : St, Leave demoEnv (shortTls demoEnv) { s1 with mem := s3.mem } x ∧ x.lr = 7777 := by
  obtain ⟨s1, s2, s3, s4, t1, r1, h2, t2, r2, h3, r3, h4⟩ := demo_nested
  obtain ⟨x, hx⟩ := leave_short demoEnv { s1 with mem := s3.mem }
  exact ⟨s1, s3, x, hx, (C62_handler_outside_partial demoEnv _ shortTls_demo demoSt demo_started s1 s3 [demoSt] [] _ t1
    (t2.tail (.leave r2 h3)) ⟨x, [], [(demoSt, x), (s1, s3)]⟩
    (.tail (.refl _) (.leave (f := 4000) ⟨r1.lo, r1.hi, r1.site⟩ hx)) demoSt x (by simp)).2⟩

/-- Room in the shadow stack: a state as after a growth to a page. -/
def demoRoomSt : St :=
  { demoSt with mem := fun a => if a = 800 then 65536 else if a = 816 then 100000 else if a = 3992 then 6000 else 0 }

example : ∃ x, Enter demoEnv (TlsCall demoEnv) 4000 demoRoomSt x ∧ x.ctr = 12345 ∧ x.r 4 = 9 :=
  C60_any_jump demoEnv 4000 demoRoomSt []
    ⟨by unfold Apart; decide, by decide, by decide, by decide, by decide, by decide, by decide, fun _ => by unfold Apart; decide,
      fun _ => by unfold Apart; decide⟩
    ⟨by decide, by simp⟩ ⟨demo_room.lo, demo_room.hi, demo_room.site⟩ (by decide) 12345 9

example := C63_never_freed [(100000, 65536), (400000, 65536)] (by decide) false [(1, 2)]
example := C63_partial true [(100000, 131072), (1, 2)]

end Verif.Ppc
