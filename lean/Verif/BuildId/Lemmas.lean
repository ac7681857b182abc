import Verif.BuildId.Spec

namespace Verif.BuildId

open Spec

theorem pad_length (n : Nat) : (pad n).length = (4 - n % 4) % 4 := by simp [pad]

theorem bytes_length (n : Note) :
    n.bytes.length = 12 + (n.name.length + 3) / 4 * 4 + (n.desc.length + 3) / 4 * 4 := by
  simp only [Note.bytes, List.length_append, le_length, pad_length]; omega

theorem u32_at {x : Bytes} {v i : Nat} (rest : Bytes) (hx : x.length = i) (hv : v < 2 ^ 32) :
    u32 (x ++ (le 4 v ++ rest)) i = v := by
  subst hx
  unfold u32
  rw [List.drop_left, List.take_append_of_le_length (by simp), List.take_of_length_le (by simp),
    leVal_le_of_lt (by simpa using hv)]

/-- The fields of the header of a note at the start of `n.bytes ++ rest`. -/
theorem header {n : Note} (h : n.Good) (rest : Bytes) :
    u32 (n.bytes ++ rest) 0 = n.name.length ∧ u32 (n.bytes ++ rest) 4 = n.desc.length
      ∧ u32 (n.bytes ++ rest) 8 = n.type := by
  obtain ⟨h1, h2, h3⟩ := h
  have e : n.bytes ++ rest = le 4 n.name.length ++ (le 4 n.desc.length ++ (le 4 n.type ++
      (n.name ++ (pad n.name.length ++ (n.desc ++ (pad n.desc.length ++ rest)))))) := by
    simp [Note.bytes]
  rw [e]
  refine ⟨u32_at (x := []) _ rfl (by omega), u32_at _ (by simp) (by omega), ?_⟩
  rw [← List.append_assoc]
  exact u32_at _ (by simp) h1

theorem align4_eq {v : Nat} (h : v + 3 < 2 ^ 31) : align4 v = (v + 3) / 4 * 4 := by
  unfold align4; rw [Nat.mod_eq_of_lt (by omega)]

theorem libWalk_segment (notes : List Note) (h : ∀ n ∈ notes, n.Good) (fuel : Nat)
    (hf : notes.length < fuel) :
    libWalk fuel (segment notes) = (notes.find? libAccepts).map Note.desc := by
  induction notes generalizing fuel with
  | nil =>
    cases fuel with
    | zero => rfl
    | succ fuel => simp [libWalk, segment]
  | cons n ns ih =>
    cases fuel with
    | zero => simp at hf
    | succ fuel =>
      have hg := h n (by simp)
      have ih := ih (fun x hx => h x (by simp [hx])) fuel (by simpa using hf)
      have e : segment (n :: ns) = n.bytes ++ segment ns := by simp [segment]
      obtain ⟨e0, e4, e8⟩ := header hg (segment ns)
      obtain ⟨g1, g2, g3⟩ := hg
      have hl := bytes_length n
      by_cases ha : libAccepts n = true
      · have ha' := ha
        simp only [libAccepts, Bool.and_eq_true, beq_iff_eq, decide_eq_true_eq] at ha'
        obtain ⟨⟨a1, a2⟩, a3⟩ := ha'
        have h16 : 16 ≤ (n.bytes ++ segment ns).length := by rw [List.length_append, hl]; omega
        rw [List.find?_cons_of_pos ha, e, libWalk]
        rw [if_pos h16]
        simp only [e0, e4, e8]
        rw [if_pos ⟨a1, a2, a3⟩]
        simp only [Option.map_some]
        congr 1
        have : n.bytes ++ segment ns
            = (le 4 n.name.length ++ le 4 n.desc.length ++ le 4 n.type ++ n.name)
              ++ (n.desc ++ (pad n.desc.length ++ segment ns)) := by
          have hp : pad n.name.length = [] := by rw [a2]; rfl
          simp [Note.bytes, hp]
        rw [this, show (16 : Nat) = (le 4 n.name.length ++ le 4 n.desc.length ++ le 4 n.type ++ n.name).length by
          simp [a2], List.drop_left, List.take_left]
      · rw [List.find?_cons_of_neg ha, e, libWalk]
        simp only [e0, e4, e8]
        have hn : ¬ (n.type = ntGnuBuildId ∧ n.name.length = 4 ∧ 16 ≤ n.desc.length) := by
          intro ⟨a1, a2, a3⟩; apply ha
          simp only [libAccepts, Bool.and_eq_true, beq_iff_eq, decide_eq_true_eq]
          exact ⟨⟨a1, a2⟩, a3⟩
        rw [if_neg hn, align4_eq g2, align4_eq g3, ← hl, List.drop_left, ih]
        by_cases h16 : 16 ≤ (n.bytes ++ segment ns).length
        · rw [if_pos h16]
        · rw [if_neg h16]
          -- too little is left for another build id
          cases hfind : ns.find? libAccepts with
          | none => rfl
          | some x =>
            exfalso
            have hx := List.mem_of_find?_eq_some hfind
            have : x.bytes.length ≤ (segment ns).length := by
              obtain ⟨s, t, rfl⟩ := List.append_of_mem hx
              simp [segment, List.flatMap_append]; omega
            have := bytes_length x
            simp only [List.length_append] at h16
            omega

end Verif.BuildId

namespace Verif.BuildId

open Spec

theorem toolAlign_even {n : Nat} (he : n % 2 = 0) (h : n + 3 < 2 ^ 31) : toolAlign n = (n + 3) / 4 * 4 := by
  unfold toolAlign; rw [Nat.mod_eq_of_lt (by omega)]; omega

theorem segment_append (x y : List Note) : segment (x ++ y) = segment x ++ segment y := by
  simp [segment, List.flatMap_append]

theorem segment_cons (n : Note) (ns : List Note) : segment (n :: ns) = n.bytes ++ segment ns := by
  simp [segment]

/-- The header of a note in memory. -/
theorem header_at {m : Mem} {a : Nat} {n : Note} (h : n.Good) (hm : At m a n.bytes) :
    leVal (m.load a 4) = n.name.length ∧ leVal (m.load (a + 4) 4) = n.desc.length
      ∧ leVal (m.load (a + 8) 4) = n.type
      ∧ At m (a + 12 + (n.name.length + 3) / 4 * 4) (n.desc ++ pad n.desc.length) := by
  obtain ⟨h1, h2, h3⟩ := h
  have e : n.bytes = le 4 n.name.length ++ (le 4 n.desc.length ++ (le 4 n.type ++
      (n.name ++ (pad n.name.length ++ (n.desc ++ pad n.desc.length))))) := by
    simp [Note.bytes]
  rw [e] at hm
  obtain ⟨m0, hm⟩ := at_append.1 hm
  obtain ⟨m4, hm⟩ := at_append.1 hm
  obtain ⟨m8, hm⟩ := at_append.1 hm
  obtain ⟨_, hm⟩ := at_append.1 hm
  obtain ⟨_, hm⟩ := at_append.1 hm
  simp only [At, le_length] at m0 m4 m8
  refine ⟨?_, ?_, ?_, ?_⟩
  · rw [m0, leVal_le_of_lt (by omega)]
  · rw [m4, leVal_le_of_lt (by omega)]
  · rw [show a + 8 = a + 4 + 4 from rfl, m8, leVal_le_of_lt (by omega)]
  · simp only [le_length, pad_length] at hm
    rw [show a + 12 + (n.name.length + 3) / 4 * 4
      = a + 4 + 4 + 4 + n.name.length + (4 - n.name.length % 4) % 4 by omega]
    exact hm

/-- A walk over notes of even sizes. -/
theorem toolWalk_pre {m : Mem} {b : Note} {post : List Note} (pre : List Note)
    (hpre : ∀ n ∈ pre, n.Good ∧ n.type ≠ 3 ∧ n.name.length % 2 = 0 ∧ n.desc.length % 2 = 0
      ∧ n.name.length + n.desc.length + 18 < 2 ^ 32)
    (fuel : Nat) (hf : pre.length < fuel) (a : Nat) (hm : At m a (segment (pre ++ b :: post)))
    (hb : b.Good) (hbt : b.type = 3) (hbn : b.name.length % 2 = 0) :
    toolWalk m fuel a (a + (segment (pre ++ b :: post)).length)
      = some (a + (segment pre).length + 12 + (b.name.length + 3) / 4 * 4, toolAlign b.desc.length) := by
  induction pre generalizing fuel a with
  | nil =>
    cases fuel with
    | zero => simp at hf
    | succ fuel =>
      simp only [List.nil_append, segment_cons] at hm
      obtain ⟨h0, h4, h8, -⟩ := header_at hb (at_append.1 hm).1
      simp only [toolWalk, h0, h4, h8, hbt, ntGnuBuildId, if_true]
      rw [toolAlign_even hbn hb.2.1]; rfl
  | cons n ns ih =>
    cases fuel with
    | zero => simp at hf
    | succ fuel =>
      obtain ⟨hg, ht, hn, hd, hs⟩ := hpre n (by simp)
      simp only [List.cons_append, segment_cons] at hm ⊢
      obtain ⟨hm1, hm2⟩ := at_append.1 hm
      obtain ⟨h0, h4, h8, -⟩ := header_at hg hm1
      have hl := bytes_length n
      have := ih (fun x hx => hpre x (by simp [hx])) fuel (by simpa using hf) _ hm2
      simp only [toolWalk, h0, h4, h8, ntGnuBuildId, ht, if_false]
      rw [toolAlign_even hn hg.2.1, toolAlign_even hd hg.2.2, Nat.mod_eq_of_lt (by omega)]
      have hpos : 0 < (segment (ns ++ b :: post)).length := by
        have := bytes_length b
        simp [segment_append, segment_cons]; omega
      simp only [List.length_append]
      rw [if_pos (by omega),
        show a + ((n.desc.length + 3) / 4 * 4 + (n.name.length + 3) / 4 * 4 + 12) = a + n.bytes.length by omega,
        ← Nat.add_assoc, this]
      simp only [Option.some.injEq, Prod.mk.injEq, and_true]
      omega

/-- The loop of `check_patch_sanity`. -/
theorem sanityLoop_eq (target : Str) (id : Bytes) (hid : id.length = 20) (objs : List Dynobj) (seen : Bool) :
    sanityLoop target id objs seen = .ret (
      if ∃ d ∈ objs, getBasename d.filename = target ∧ d.buildId = id then 0
      else if seen = true ∨ ∃ d ∈ objs, getBasename d.filename = target then EBUILDID else ENOTARGETLIB) := by
  induction objs generalizing seen with
  | nil => simp [sanityLoop]
  | cons d ds ih =>
    have ht : id.take buildIdLen = id := List.take_of_length_le (by rw [hid]; decide)
    have hl : ¬ id.length < buildIdLen := by rw [hid]; decide
    rw [sanityLoop, if_neg hl, ht]
    simp only [ih]
    by_cases hn : getBasename d.filename = target
    · by_cases hb : d.buildId = id
      · simp [hn, hb]
      · have hb' : ¬ id = d.buildId := fun h => hb h.symm
        simp [hn, hb, hb']
    · simp [hn]

end Verif.BuildId
