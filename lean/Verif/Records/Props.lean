import Verif.Records.Lemmas

namespace Verif.Records

open Verif.Heap (Heap Blk)

/-! ## C138: what the tool keeps about processes is released, each block once -/

theorem Owns.listing (es : List Ev) (hf : Fits es) : Owns [] (listing es) (fun _ R => R.length = broken es) := by
  refine .bind (Owns.events (P := []) es hf [] (by simp)) ?_
  rintro l S ⟨_, lost, h1, h2⟩
  refine ((Owns.releaseAll (P := lost ++ []) l).weaken h1 ?_)
  rintro _ R rfl
  simpa using h2

/-- Whatever processes answer and however often their threads are stopped, a listing never releases or uses memory that is not allocated.  At its
end nothing is left of it but one block of every process about which reading broke off. -/
theorem C138_listing (es : List Ev) (hf : Fits es) (h : Heap) (hw : h.Wf) :
    ∃ h' lost, listing es h = some ((), h') ∧ Left h h' lost ∧ lost.length = broken es := by
  obtain ⟨_, h', lost, e, h1, _, h3⟩ := (Owns.listing es hf).start h hw
  exact ⟨h', lost, e, h1, h3⟩

/-- If the auxiliary vector and the link map of all processes can be read, whether or not they can be patched, everything is given back. -/
theorem C138_given_back_partial (es : List Ev) (hf : Fits es) (hr : ∀ pid a, Ev.insert pid a ∈ es → a.broken = false)
    (h : Heap) (hw : h.Wf) : ∃ h', listing es h = some ((), h') ∧ h'.live.Perm h.live := by
  obtain ⟨h', lost, e, h1, h2⟩ := C138_listing es hf h hw
  have : broken es = 0 := by
    clear e h2 hf
    induction es with
    | nil => rfl
    | cons x es ih =>
      have := ih fun pid a h => hr pid a (List.mem_cons_of_mem _ h)
      cases x with
      | insert pid a => simp [broken, this, hr pid a (by simp)]
      | use pid u => exact this
  rw [this] at h2
  have : lost = [] := by simpa using h2
  subst this
  exact ⟨h', e, by simpa [Left] using h1⟩

/-- A process about which reading breaks off costs a block, which is never given back. -/
theorem C138_lost (es : List Ev) (hf : Fits es) (pid : Nat) (a : Answers) (hi : Ev.insert pid a ∈ es) (hb : a.broken = true)
    (h h' : Heap) (hw : h.Wf) (hl : listing es h = some ((), h')) : h.live.length < h'.live.length := by
  obtain ⟨h'', lost, e, h1, h2⟩ := C138_listing es hf h hw
  rw [e] at hl
  cases hl
  have hp : 0 < broken es := by
    clear e h2 hf
    induction es with
    | nil => simp at hi
    | cons x es ih =>
      rcases List.mem_cons.1 hi with rfl | hi
      · simp [broken, hb]; omega
      · have := ih hi
        cases x <;> simp [broken] <;> omega
  have := h1.length_eq
  simp only [List.length_append] at this
  omega

/-- The same for the commands on one process, `ulp check` and `ulp messages`. -/
theorem C138_single (pid : Nat) (a : Answers) (us : List Use) (hu : ∀ u ∈ us, u.Fits pid) (h : Heap) (hw : h.Wf) :
    ∃ h' lost, single pid a us h = some ((), h') ∧ Left h h' lost ∧ lost.length = a.broken.toNat := by
  have : Owns [] (single pid a us) (fun _ R => R.length = a.broken.toNat) := by
    refine .bind .alloc ?_
    rintro b S rfl
    refine .bind (.initData a b pid) ?_
    rintro ⟨ok, r⟩ S ⟨hi, hp, lost, h1, h2⟩
    dsimp only at hi hp h1 ⊢
    have hk : ∀ r' : Rec, Owns (r'.blocks ++ lost) (release r') (fun _ R => R.length = a.broken.toNat) := by
      intro r'
      refine (Owns.release (P := lost) r').weaken (.refl _) ?_
      rintro _ R rfl
      exact h2
    cases ok with
    | true =>
      refine .bind ((Owns.frame (F := lost) (Owns.uses us r hi (by rw [hp]; exact hu))).weaken h1 fun _ _ h => h) ?_
      rintro r' T ⟨T, rfl, hT⟩
      exact (hk r').weaken (hT.append_right _) fun _ _ h => h
    | false => 
      refine .bind (Owns.pure (a := r) (Q := fun r' R => r' = r ∧ R = S) ⟨rfl, rfl⟩) ?_
      rintro r' _ ⟨rfl, rfl⟩
      exact (hk r').weaken h1 fun _ _ h => h
  obtain ⟨_, h', lost, e, h1, _, h2⟩ := this.start h hw
  exact ⟨h', lost, e, h1, h2⟩

/-! ## C139: a listing ends in order -/

theorem Owns.whole (isPid proc : Bool) (es : List Ev) (hf : Fits es) (s : Listing) (hq : s.threading = true → isPid = false → proc = true)
    (hs : s.thread ≠ .running) :
    Owns [] (whole isPid proc es s) (fun s' R => s'.threading = s.threading ∧ s'.thread ≠ .running ∧ s'.queue = none ∧
      R.length = if isPid || proc then broken es else 0) := by
  have hev : ∀ P : List Blk, Owns P (Records.events (if isPid || proc then es else []) []) (fun l R => 
      ∃ lost : List Blk, R.Perm (listBlocks l ++ (lost ++ P)) ∧ lost.length = if isPid || proc then broken es else 0) := by
    intro P
    split
    · refine (Owns.events (P := P) es hf [] (by simp)).weaken (.refl _) ?_
      rintro l R ⟨_, h⟩
      exact h
    · exact .pure ⟨[], by simp [listBlocks], rfl⟩
  have hfin : ∀ (s' : Listing) (hj : s'.threading = true → s'.thread = .running) (hj' : s'.threading = false → s'.thread ≠ .running)
      (ho : s'.original = s.threading) (lost : List Blk) (l : List Rec),
      Owns (listBlocks l ++ (lost ++ s'.queue.toList)) (finish l s') (fun (s' : Listing) R => s'.threading = s.threading ∧ s'.thread ≠ .running ∧ s'.queue = none ∧ R = lost) := by
    intro s' hj hj' ho lost l
    refine .bind (.releaseAll l) ?_
    rintro _ S rfl
    refine .bind (Q := fun (t : Handle) R => t ≠ .running ∧ R = lost ++ s'.queue.toList) ?_ ?_
    · unfold await
      split
      · next ht => rw [hj ht]; exact .pure ⟨by simp, rfl⟩
      · next ht => exact .pure ⟨hj' (by simpa using ht), rfl⟩
    · rintro t S ⟨ht, rfl⟩
      cases e : s'.queue with
      | none => exact .pure ⟨ho, ht, rfl, by simp⟩
      | some q =>
        refine .bind ((Owns.free (P := lost) (b := q)).weaken (by simp) fun _ _ h => h) ?_
        rintro _ S rfl
        exact .pure ⟨ho, ht, rfl, rfl⟩
  refine .bind (Q := fun s' R => R = s'.queue.toList ∧ (s'.threading = true → s'.thread = .running) ∧
      (s'.threading = false → s'.thread ≠ .running) ∧ s'.original = s.threading) ?_ ?_
  · unfold begin
    dsimp only
    split
    · exact .pure ⟨rfl, by simp, fun _ => hs, rfl⟩
    · next h1 =>
      split
      · next h2 =>
        refine .pure ⟨rfl, fun ht => ?_, fun _ => hs, rfl⟩
        have := hq ht (by simpa using h1)
        simp [this] at h2
      · split
        · next h3 =>
          refine .bind .alloc ?_
          rintro q S rfl
          exact .pure ⟨rfl, fun _ => rfl, fun h => absurd h3 (by simpa using h), rfl⟩
        · next h3 => exact .pure ⟨rfl, fun h => absurd h (by simpa using h3), fun _ => hs, rfl⟩
  · rintro s' S ⟨rfl, h1, h2, h3⟩
    refine .bind (hev _) ?_
    rintro l S ⟨lost, h4, h5⟩
    refine (hfin s' h1 h2 h3 lost l).weaken h4 ?_
    rintro s'' R ⟨k1, k2, k3, rfl⟩
    exact ⟨k1, k2, k3, h5⟩

/-- A listing of which `/proc` can be opened, or that is for a process given by number, or that uses no thread: at its end its thread has ended, the
queue and all records are released, and whether threads are used is as before. -/
theorem C139_in_order_partial (isPid proc : Bool) (es : List Ev) (hf : Fits es) (s : Listing)
    (hq : s.threading = true → isPid = false → proc = true) (hs : s.thread ≠ .running) (h : Heap) (hw : h.Wf) :
    ∃ s' h' lost, whole isPid proc es s h = some (s', h') ∧ s'.threading = s.threading ∧ s'.thread ≠ .running ∧ s'.queue = none ∧
      Left h h' lost ∧ lost.length ≤ broken es := by
  obtain ⟨s', h', lost, e, h1, _, h2, h3, h4, h5⟩ := (Owns.whole isPid proc es hf s hq hs).start h hw
  refine ⟨s', h', lost, e, h2, h3, h4, h1, ?_⟩
  rw [h5]; split <;> omega

/-- If `/proc` cannot be opened, a listing with threads waits for a thread that was never started: undefined behaviour. -/
theorem C139_no_proc (es : List Ev) (s : Listing) (ht : s.threading = true) (hs : s.thread ≠ .running) (h : Heap) :
    whole false false es s h = none := by
  obtain ⟨t, o, th, q⟩ := s
  cases ht
  cases th <;> first | exact absurd rfl hs | rfl

/-! ### Examples -/

/-- A process of one thread with libpulp and a library. -/
def exAnswers : Answers :=
  { attached := true, name := true, bias := true, linkMap := true,
    libs := [.named ⟨0, true⟩ false, .named ⟨2, true⟩ true], symbols := [[⟨0, true⟩, ⟨0, true⟩], [⟨0, true⟩, ⟨0, false⟩]], ready := true }

/-- Two processes, one of which cannot be read, and a live patch applied to the other at the second attempt. -/
def exEvents : List Ev :=
  [.insert 7 exAnswers, .insert 8 { exAnswers with libs := [.unreadable] },
   .use 7 (.attempt true [.thread 7 true true, .thread 9 true false] 2), 
   .use 7 (.attempt true [.thread 7 true true, .thread 9 true true, .thread 7 true true] 2), .use 7 .note]

theorem exFits : Fits exEvents := by
  intro pid u h
  simp [exEvents] at h
  rcases h with ⟨rfl, rfl⟩ | ⟨rfl, rfl⟩ | ⟨rfl, rfl⟩
  · exact ⟨by decide, true, true, by simp⟩
  · exact ⟨by decide, true, true, by simp⟩
  · trivial

theorem exWf : (Heap.mk [3, 1] 5).Wf := ⟨by decide, by decide⟩

example : ∃ h' lost, listing exEvents ⟨[3, 1], 5⟩ = some ((), h') ∧ Left ⟨[3, 1], 5⟩ h' lost ∧ lost.length = 1 :=
  C138_listing exEvents exFits _ exWf

example : (listing exEvents ⟨[3, 1], 5⟩).map (fun x => x.2.live.length) = some 3 := by decide +kernel

example : (listing (exEvents.eraseIdx 1) ⟨[3, 1], 5⟩).map (fun x => x.2.live) = some [3, 1] := by decide +kernel

example : ∃ h', listing (exEvents.eraseIdx 1) ⟨[3, 1], 5⟩ = some ((), h') ∧ h'.live.Perm [3, 1] :=
  C138_given_back_partial _ (fun pid u h => exFits pid u (List.mem_of_mem_eraseIdx h))
    (by intro pid a h; simp [exEvents] at h; rcases h with ⟨rfl, rfl⟩; decide) ⟨[3, 1], 5⟩ exWf

example (h' : Heap) (hl : listing exEvents ⟨[3, 1], 5⟩ = some ((), h')) : 2 < h'.live.length :=
  C138_lost exEvents exFits 8 { exAnswers with libs := [.unreadable] } (by simp [exEvents]) (by decide) _ h' exWf hl

example : ∃ h' lost, single 7 exAnswers [.attempt true [.thread 9 true true, .thread 7 true true] 3] ⟨[3, 1], 5⟩ = some ((), h') ∧
    Left ⟨[3, 1], 5⟩ h' lost ∧ lost.length = 0 :=
  C138_single 7 exAnswers _ (by simp [Use.Fits, Lists]) _ exWf

example : ∃ s' h' lost, whole false true exEvents { threading := true } ⟨[3, 1], 5⟩ = some (s', h') ∧ s'.threading = true ∧
    s'.thread ≠ .running ∧ s'.queue = none ∧ Left ⟨[3, 1], 5⟩ h' lost ∧ lost.length ≤ broken exEvents :=
  C139_in_order_partial false true exEvents exFits { threading := true } (fun _ _ => rfl) (by decide) _ exWf

example : whole false false exEvents { threading := true } ⟨[3, 1], 5⟩ = none := C139_no_proc _ _ rfl (by decide) _

end Verif.Records
