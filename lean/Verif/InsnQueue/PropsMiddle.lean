import Verif.InsnQueue.Props

/-! # A failing write in the middle of the queue (C07)

After a failed write decoding resumes one byte before it, at the last byte of the request before.  If
that byte is no instruction type, the failure is reported whatever follows. -/

namespace Verif.InsnQueue
open Spec

/-- **C07**, the part that is true of writes anywhere but at the start of the queue: if the request
before the failing one is a write that fills its slot and whose last byte is none of the instruction
types 0, 1 and 2 (as in a jump written over a function without endbr64, which ends in 0xf0), the
failure is reported as EINSNQ, nothing after it is executed, and the queue is not reset.  Missing:
other requests before the failing one, see `C07_failed_write_reported_as_success`. -/
theorem C07_middle_write_reported_partial (q₀ q : Queue) (rs post : List Req) (a₀ a : Nat)
    (b₀ bs : List UInt8) (x : UInt8) (written : Nat) (fault : Nat → Option Nat)
    (hv : ∀ r ∈ rs ++ [.write a₀ (b₀ ++ [x])] ++ .write a bs :: post, Req.Valid r)
    (hver : q₀.version ≤ currVersion) (hnum : q₀.num = 0) (hsize : q₀.size = 0)
    (hacc : insertAll? q₀ (rs ++ [.write a₀ (b₀ ++ [x])] ++ .write a bs :: post) = some q)
    (hlen : (b₀ ++ [x]).length % 8 = 0) (hx : 2 < x.toNat)
    (hok : ∀ j ≤ rs.length, fault j = none) (hfail : fault (rs.length + 1) = some written) :
    toolRun q fault =
      (((rs ++ [Req.write a₀ (b₀ ++ [x])]).map asked ++ [Event.writeFailed a bs written]).map Effect.ev,
        some EINSNQ) := by
  have h0 : Holds q₀ [] := ⟨hnum, hsize, by rw [hsize]; omega, by simp, trivial⟩
  have h := holds_insertAll h0 hv hacc
  rw [List.nil_append] at h
  obtain ⟨q', e, h'⟩ := fetch_holds h (by rw [insertAll_version hacc]; exact hver)
  have hl := h'.layout
  rw [layout_append] at hl
  obtain ⟨hl1, hl2, _⟩ := hl
  have hs := h'.size
  have hf := h'.fits
  rw [total_append, total] at hs
  have h1 := interpretFrom_layout (buf := q'.buf) (size := q'.size) (fault := fault)
    (rs ++ [.write a₀ (b₀ ++ [x])]) (post.length + 1) 0 0
    (fun r hr => hv r (List.mem_append.mpr (Or.inl hr))) hl1 (by omega)
    (by intro j _ hj; exact hok j (by simp at hj; omega))
  have hvw : Req.Valid (.write a bs) := hv _ (by simp)
  have hv0 : Req.Valid (.write a₀ (b₀ ++ [x])) := hv _ (by simp)
  have hstep := step_at (fault := some written) hvw hl2 (by omega)
  -- the byte before the failing write
  have hlast : q'.buf (total (rs ++ [.write a₀ (b₀ ++ [x])]) - 1) = x
      ∧ 0 < total (rs ++ [.write a₀ (b₀ ++ [x])]) := by
    rw [layout_append] at hl1
    obtain ⟨_, hat, _⟩ := hl1
    have hsz : (Req.write a₀ (b₀ ++ [x])).insnSize = 16 + (b₀ ++ [x]).length := by
      obtain ⟨_, hb⟩ := hv0
      simp only [Req.insnSize]
      rw [alignTo_8 (by omega)]
      omega
    rw [total_append]
    simp only [total, hsz, List.length_append, List.length_singleton]
    refine ⟨?_, by omega⟩
    simp only [Req.encode] at hat
    rw [← List.append_assoc, at_append, at_cons] at hat
    have := hat.2.1
    simp only [List.length_append, le_length, List.length_singleton, Nat.zero_add] at this
    rw [← this]
    congr 1
  have hinv : ∀ f, step q'.buf (((0 + total (rs ++ [.write a₀ (b₀ ++ [x])]) : Nat) : Int) + -1) f = .invalid := by
    intro f
    unfold step
    have hmax : bufMax = 2097152 := rfl
    have hpos := insnSize_pos hvw
    rw [if_neg (by omega)]
    have : (((0 + total (rs ++ [.write a₀ (b₀ ++ [x])]) : Nat) : Int) + -1).toNat
        = total (rs ++ [.write a₀ (b₀ ++ [x])]) - 1 := by omega
    simp only [this, hlast.1]
    rw [if_neg (by rintro rfl; simp at hx), if_neg (by rintro rfl; simp at hx),
      if_neg (by rintro rfl; simp at hx)]
  have hi : 0 + (rs ++ [Req.write a₀ (b₀ ++ [x])]).length = rs.length + 1 := by simp
  unfold toolRun
  rw [e]
  simp only [ne_eq, not_true, if_false]
  unfold interpret
  rw [h'.num, List.length_append, List.length_cons]
  rw [show (((0 : Nat) : Int)) = 0 from rfl] at h1
  rw [h1, hi]
  simp only [interpretFrom]
  rw [hfail, hstep]
  simp only
  cases post with
  | nil =>
    simp only [List.length_nil, interpretFrom]
    have hpos := insnSize_pos hvw
    rw [if_neg (by omega)]
    simp
  | cons r post =>
    simp only [List.length_cons, interpretFrom]
    rw [hinv]
    simp

/-- A jump, a write and a message; the second write fails after one byte. -/
example : ∃ q, insertAll? Queue.fresh
    [.write 0x1000 [0xff, 0x25, 0, 0, 0, 0, 1, 2, 3, 4, 5, 6, 7, 8, 0xeb, 0xf0], .write 0x2000 [9, 9], .print [97]] = some q ∧
    toolRun q (fun j => if j = 1 then some 1 else none) =
      ([.ev (.write 0x1000 [0xff, 0x25, 0, 0, 0, 0, 1, 2, 3, 4, 5, 6, 7, 8, 0xeb, 0xf0]),
        .ev (.writeFailed 0x2000 [9, 9] 1)], some EINSNQ) :=
  ⟨_, rfl, C07_middle_write_reported_partial Queue.fresh _ [] [.print [97]] 0x1000 0x2000
    [0xff, 0x25, 0, 0, 0, 0, 1, 2, 3, 4, 5, 6, 7, 8, 0xeb] [9, 9] 0xf0 1
    (fun j => if j = 1 then some 1 else none) (by simp [Req.Valid]) (by decide) rfl rfl rfl (by decide) (by decide)
    (by intro j hj; simp at hj; simp [hj]) (by simp)⟩

end Verif.InsnQueue
