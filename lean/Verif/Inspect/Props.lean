import Verif.Inspect.Lemmas

namespace Verif.Inspect

open Spec

/-! ### C92: the objects of a process -/

/-- C92: of every dynamically linked process laid out as the kernel and the loader do it, with the program loaded anywhere, the tools
find the load bias of the program and all objects of the link map, each with its bias and name, whatever their number.  Partial: the program has
a `PT_PHDR` that is not 0, and 15 bytes behind each name can be read; see below for what happens otherwise. -/
theorem C92_objects_partial {p : Proc} {bias : Nat} {main : LinkMap} {objs : List Obj} (hp : Program p bias main) (hc : Chain p main.next objs) :
    ∃ dyn N, digLoadBias p = .ok (bias, dyn) ∧
      ∀ fuel, N ≤ fuel → digMainLinkMap p dyn fuel = some (.ok main) ∧ libsLoop p fuel main.next [] = some objs.reverse := by
  obtain ⟨aux, phs, dyn, phdr, entry, ptPhdr, adyn, rDebug, map, ha, he, hph, hpe, hpn, he0, hp0, hphs, hpt, hpt0, hbias, had, hlt, hdyn, hdbg, hdl, hdr, hdn, hm1, hm2, hm3, hm4⟩ := hp.image
  obtain ⟨N, hN⟩ := libsLoop_ok hc []
  obtain ⟨ha1, end_, rest, hb⟩ := ha
  obtain ⟨y, y1, y2, y3, y4, y5⟩ := auxLoop_ok ha1 end_ rest ⟨0, 0, 0, 0⟩
  have e1 := y2 entry (Or.inr he.1) he.2
  have e2 := y3 phdr (Or.inr hph.1) hph.2
  have e3 := y4 _ (Or.inr hpn.1) hpn.2
  have e4 := y5 56 (Or.inr hpe.1) hpe.2
  obtain ⟨pt', ad', l1, l2, l3⟩ := phdrLoop_ok hphs 0 0
  have f1 := l2 ptPhdr (Or.inr hpt.1) hpt.2
  have f2 := l3 adyn (Or.inr had.1) had.2
  subst f1 f2
  have hphlt := (ha1 _ hph.1).2.2
  simp only at hphlt
  refine ⟨ad' + bias, N + dyn.length, ?_, fun fuel hf => ⟨?_, ?_⟩⟩
  · unfold digLoadBias
    rw [hb, y1]
    simp only [e1, e2, e3, e4]
    rw [if_neg he0, if_neg hp0, if_neg (by simp), l1]
    simp only
    rw [if_pos hpt0, hbias]
    have w1 : wrap (pt' + bias + 2 ^ 64 - pt') = bias := by unfold wrap; omega
    have w2 : wrap (ad' + (pt' + bias) + 2 ^ 64 - pt') = ad' + bias := by unfold wrap; omega
    rw [w1, w2]
  · unfold digMainLinkMap
    rw [debugLoop_ok hdyn hdbg.1 hdbg.2 (by omega)]
    simp only
    rw [wrap_lt hdl, readMem_ok (by simpa using hdr)]
    simp only
    rw [num_load (show Num p (rDebug + 8 + 0) 8 map from hdn) (by omega), readLinkMap_ok hm1 hm2 hm3 hm4]
  · simpa using hN fuel (by omega)

/-- C92 is false in general: a program without `PT_PHDR` is taken to be loaded where it was linked, wherever it is loaded, and its
dynamic section is looked for at an address that does not have the bias in it. -/
theorem C92_no_pt_phdr {p : Proc} {aux phs : List (Nat × Nat)} {phdr entry adyn : Nat} (ha : IsAuxv p.auxv aux) (he : Only aux 9 entry) (hph : Only aux 3 phdr)
    (hpe : Only aux 4 56) (hpn : Only aux 5 phs.length) (he0 : entry ≠ 0) (hp0 : phdr ≠ 0) (hphs : Phdrs p phdr phs) (had : Only phs 2 adyn) (hno : ∀ v, (6, v) ∉ phs) :
    digLoadBias p = .ok (0, adyn) := by
  obtain ⟨ha1, end_, rest, hb⟩ := ha
  obtain ⟨y, y1, y2, y3, y4, y5⟩ := auxLoop_ok ha1 end_ rest ⟨0, 0, 0, 0⟩
  have e1 := y2 entry (Or.inr he.1) he.2
  have e2 := y3 phdr (Or.inr hph.1) hph.2
  have e3 := y4 _ (Or.inr hpn.1) hpn.2
  have e4 := y5 56 (Or.inr hpe.1) hpe.2
  obtain ⟨pt', ad', l1, l2, l3⟩ := phdrLoop_ok hphs 0 0
  have f1 := l2 0 (Or.inl rfl) (fun v hv => absurd hv (hno v))
  have f2 := l3 adyn (Or.inr had.1) had.2
  subst f1 f2
  unfold digLoadBias
  rw [hb, y1]
  simp only [e1, e2, e3, e4]
  rw [if_neg he0, if_neg hp0, if_neg (by simp), l1]
  rfl

/-- C92, other programs: without the tag for debuggers in the dynamic section the tools say so. -/
theorem C92_no_debug_tag {p : Proc} {a : Nat} {dyn : List (Nat × Nat)} (h : Dynamic p a dyn) (hno : ∀ v, (21, v) ∉ dyn) {fuel : Nat} (hf : dyn.length < fuel) :
    digMainLinkMap p a fuel = some (.error ENODEBUGTAG) := by
  have : debugLoop p fuel a = some (.error ENODEBUGTAG) := by
    induction dyn generalizing a fuel with
    | nil =>
      obtain ⟨r1, n1⟩ := dynamic_end h
      obtain ⟨k, rfl⟩ : ∃ k, fuel = k + 1 := ⟨fuel - 1, by omega⟩
      simp only [debugLoop]
      rw [readMem_ok r1]
      simp only [n1]
      rfl
    | cons x l ih =>
      obtain ⟨t, w⟩ := x
      obtain ⟨h0, r1, n1, n2, ht⟩ := dynamic_head h
      obtain ⟨k, rfl⟩ : ∃ k, fuel = k + 1 := ⟨fuel - 1, by omega⟩
      simp only at h0 n1 n2
      simp only [debugLoop]
      rw [readMem_ok r1]
      simp only [n1]
      rw [if_neg h0, if_neg (fun hc => hno w (by simp [hc]))]
      exact ih ht (fun v hv => hno v (List.mem_cons_of_mem _ hv)) (by simpa using hf)
  unfold digMainLinkMap
  rw [this]

/-! ### C93: libpulp and its entry points -/

theorem names_eq : names = suffixes.map (pre ++ ·) := by decide +kernel

theorem spec_get (bias : Nat) (l : List Symbol) {i : Nat} {n : Str} (h : names[i]? = some n) : (spec bias l)[i]? = some (address bias l n) := by
  rw [names_eq, List.getElem?_map] at h
  unfold spec
  rw [List.getElem?_map]
  cases hs : suffixes[i]? with
  | none => rw [hs] at h; simp at h
  | some s => rw [hs] at h; simp only [Option.map_some, Option.some.injEq] at h ⊢; rw [h]

theorem complete_iff (bias : Nat) (l : List Symbol) : complete (spec bias l) = true ↔ Exports bias l := by
  have key : ∀ (i : Nat) n, names[i]? = some n → ((((spec bias l)[i]?.getD none).getD 0 ≠ 0) ↔ ∃ a, address bias l n = some a ∧ a ≠ 0) := by
    intro i n h
    rw [spec_get bias l h]
    cases address bias l n <;> simp
  have hr : required = [names[0]!, names[1]!, names[2]!, names[3]!, names[5]!, names[6]!] := by decide +kernel
  unfold complete Exports
  rw [hr]
  simp only [List.all_cons, List.all_nil, Bool.and_true, Bool.and_eq_true, decide_eq_true_eq, List.forall_mem_cons]
  rw [key 0 names[0]! (by decide +kernel), key 1 names[1]! (by decide +kernel), key 2 names[2]! (by decide +kernel), key 3 names[3]! (by decide +kernel),
    key 5 names[5]! (by decide +kernel), key 6 names[6]! (by decide +kernel)]
  simp

theorem parseLibs_one {p : Proc} {main : LinkMap} {objs : List Obj} (hc : Chain p main.next objs) (s : Obj → Syms)
    (hs : ∀ x ∈ objs, Mentions x → ∃ N, ∀ fuel, N ≤ fuel → objSyms p x fuel = some (s x)) {o : Obj} (ho : o ∈ objs) (hm : Mentions o)
    (hone : ∀ x ∈ objs, Mentions x → (complete (s x) = true ∨ x = o) → x = o) (hfull : complete (s o) = true ∨ ∀ x ∈ objs, Mentions x → x = o) :
    ∃ N, ∀ fuel, N ≤ fuel → parseLibs p main fuel = some (.ok (objs.reverse, o, s o)) := by
  obtain ⟨N1, h1⟩ := libsLoop_ok hc []
  obtain ⟨f, hf⟩ : ∃ f, objs.reverse.find? (fun o => SymLoad.strstr o.name pulpName) = some f := by
    cases h : objs.reverse.find? (fun o => SymLoad.strstr o.name pulpName) with
    | some f => exact ⟨f, rfl⟩
    | none =>
      rw [List.find?_eq_none] at h
      exact absurd ((strstr_mentions o).mpr hm) (h o (by simpa using ho))
  have hfm : Mentions f := (strstr_mentions f).mp (by simpa using List.find?_some hf)
  have hfo : f ∈ objs := by simpa using List.mem_of_find?_eq_some hf
  obtain ⟨N2, h2⟩ := hs f hfo hfm
  obtain ⟨N3, h3⟩ := otherLoop_ok (p := p) (s := s) (objs.reverse.filter (· ≠ f)) (fun x hx => hs x (by simpa using (List.mem_filter.mp hx).1))
  refine ⟨N1 + N2 + N3, fun fuel hfu => ?_⟩
  unfold parseLibs
  rw [h1 fuel (by omega), List.append_nil]
  simp only [hf, h2 fuel (by omega), h3 fuel (by omega)]
  rw [foldl_last _ o]
  · intro x hx
    rw [List.mem_filter, List.mem_filter, Bool.and_eq_true] at hx
    exact hone x (by simpa using hx.1.1) ((strstr_mentions x).mp hx.2.1) (Or.inl hx.2.2)
  · intro he
    have : f = o := by
      by_cases hfo' : f = o
      · exact hfo'
      · rcases hfull with hfull | hfull
        · have : o ∈ (objs.reverse.filter (· ≠ f)).filter (fun o => SymLoad.strstr o.name pulpName && complete (s o)) := by
            rw [List.mem_filter, List.mem_filter]
            refine ⟨⟨by simpa using ho, by simpa using fun h => hfo' h.symm⟩, ?_⟩
            rw [(strstr_mentions o).mpr hm, hfull]; rfl
          rw [he] at this
          simp at this
        · exact hfull f hfo hfm
    rw [this]

/-- C93: if among the loaded objects that are called like libpulp exactly one has the entry points libpulp must have, wherever in the link map it
is, that one is taken, and every entry point is found where the loader put it: at the sum of the bias and the value of the symbol of that name,
in symbol tables of any size and order; one the object does not have is not found.  Partial: each of these objects has a table `DT_HASH`, no symbol twice
with different values, and 15 bytes behind each name can be read; see below. -/
theorem C93_entry_points_partial {p : Proc} {main : LinkMap} {objs : List Obj} (hc : Chain p main.next objs) (syms : Obj → List Symbol)
    (hs : ∀ x ∈ objs, Mentions x → WithSymbols p x (syms x) ∧ Unambiguous (syms x)) {o : Obj} (ho : o ∈ objs) (hm : Mentions o)
    (hone : ∀ x ∈ objs, Mentions x → (Exports x.map.addr (syms x) ↔ x = o)) :
    ∃ s N, (∀ fuel, N ≤ fuel → parseLibs p main fuel = some (.ok (objs.reverse, o, s))) ∧
      ∀ (i : Nat) n, names[i]? = some n → s[i]? = some (address o.map.addr (syms o) n) := by
  obtain ⟨N, hN⟩ := parseLibs_one hc (fun x => spec x.map.addr (syms x)) (fun x hx hxm => objSyms_ok (hs x hx hxm).2 (hs x hx hxm).1) ho hm
    (fun x hx hxm h => by
      rcases h with h | h
      · exact (hone x hx hxm).mp ((complete_iff _ _).mp h)
      · exact h)
    (Or.inl ((complete_iff _ _).mpr ((hone o ho hm).mpr rfl)))
  exact ⟨_, N, hN, fun i n h => spec_get _ _ h⟩

/-- C93, no libpulp: without an object of that name the tools say so. -/
theorem C93_not_loaded {p : Proc} {main : LinkMap} {objs : List Obj} (hc : Chain p main.next objs) (hno : ∀ x ∈ objs, ¬ Mentions x) :
    ∃ N, ∀ fuel, N ≤ fuel → parseLibs p main fuel = some (.error ENOLIBPULP) := by
  obtain ⟨N, hN⟩ := libsLoop_ok hc []
  refine ⟨N, fun fuel hf => ?_⟩
  unfold parseLibs
  rw [hN fuel hf, List.append_nil]
  have : objs.reverse.find? (fun o => SymLoad.strstr o.name pulpName) = none := by
    rw [List.find?_eq_none]
    intro x hx hs
    exact hno x (by simpa using hx) ((strstr_mentions x).mp hs)
  simp only [this]

theorem objSyms_no_hash {p : Proc} {o : Obj} {dyn : List (Nat × Nat)} (h : Loaded p o dyn) (hno : ∀ v, (4, v) ∉ dyn) :
    ∃ N, ∀ fuel, N ≤ fuel → objSyms p o fuel = some (List.replicate 11 none) := by
  obtain ⟨phoff, phs, adyn, n1, n2, hlt, hph, ho, hcnt, hlt', hdyn⟩ := h.headers
  refine ⟨dyn.length + 1, fun fuel hf => ?_⟩
  obtain ⟨s, t, hd⟩ := dynLoop_no_hash (s0 := 0) (t0 := 0) hdyn hno (show dyn.length < fuel by omega)
  have : parseHeaders p o.map fuel = some (.ok ⟨s, t, 0⟩) := by
    unfold parseHeaders
    rw [if_neg h.name, if_pos h.bias]
    simp only
    rw [readMem_ok (by simpa using h.ehdr)]
    simp only [num_load h.entsize (show 54 + 2 ≤ 64 by omega), num_load n1 (show 32 + 8 ≤ 64 by omega), num_load n2 (show 56 + 2 ≤ 64 by omega)]
    rw [if_neg (by simp), wrap_lt hlt, objLoop_one hph ho hcnt (s := s) (t := t) (v := 0) (r := false) (by rw [wrap_lt hlt']; exact hd)]
    rfl
  unfold objSyms
  rw [this]
  simp [libpulpSymbols]

/-- C93 is false of a libpulp linked with the GNU style of hash table only: whatever symbols it has, none is found. -/
theorem C93_gnu_hash {p : Proc} {main : LinkMap} {objs : List Obj} (hc : Chain p main.next objs) {o : Obj} (ho : o ∈ objs) (hm : Mentions o)
    (hone : ∀ x ∈ objs, Mentions x → x = o) {dyn : List (Nat × Nat)} (h : Loaded p o dyn) (hno : ∀ v, (4, v) ∉ dyn) :
    ∃ N, ∀ fuel, N ≤ fuel → parseLibs p main fuel = some (.ok (objs.reverse, o, List.replicate 11 none)) := by
  refine parseLibs_one hc (fun _ => List.replicate 11 none) (fun x hx hxm => ?_) ho hm (fun x hx hxm _ => hone x hx hxm) (Or.inr hone)
  rw [hone x hx hxm]
  exact objSyms_no_hash h hno

theorem readMem_none {p : Proc} {a n : Nat} (h : ¬ Readable p a n) : readMem p a n = none := by
  unfold readMem
  rw [if_neg]
  intro hall
  rw [List.all_eq_true] at hall
  exact h (fun i hi => hall i (List.mem_range.mpr hi))

/-- C93 is false of a libpulp whose ELF header is not where the bias points, as with a file whose first segment does not begin at address 0: whatever symbols it
has, none is found, and the error of the search is not reported. -/
theorem C93_headers_elsewhere {p : Proc} {main : LinkMap} {objs : List Obj} (hc : Chain p main.next objs) {o : Obj} (ho : o ∈ objs) (hm : Mentions o)
    (hone : ∀ x ∈ objs, Mentions x → x = o) (hb : o.map.addr ≠ 0)
    (hbad : ¬ Readable p o.map.addr 64 ∨ ∃ v, v ≠ 56 ∧ Num p (o.map.addr + 54) 2 v) :
    ∃ N, ∀ fuel, N ≤ fuel → parseLibs p main fuel = some (.ok (objs.reverse, o, List.replicate 11 none)) := by
  refine parseLibs_one hc (fun _ => List.replicate 11 none) (fun x hx hxm => ?_) ho hm (fun x hx hxm _ => hone x hx hxm) (Or.inr hone)
  rw [hone x hx hxm]
  refine ⟨0, fun fuel _ => ?_⟩
  have : ∃ e, parseHeaders p o.map fuel = some (.error e) := by
    unfold parseHeaders
    by_cases hn : o.map.name = 0
    · exact ⟨_, by rw [if_pos hn]⟩
    · rw [if_neg hn, if_pos hb]
      simp only
      by_cases hr : Readable p o.map.addr 64
      · rcases hbad with h | ⟨v, hv, h⟩
        · exact absurd hr h
        · rw [readMem_ok (by simpa using hr)]
          simp only [num_load h (show 54 + 2 ≤ 64 by omega)]
          exact ⟨_, by rw [if_pos hv]⟩
      · rw [readMem_none hr]
        exact ⟨_, rfl⟩
  obtain ⟨e, he⟩ := this
  unfold objSyms
  rw [he]

/-- C93 is false of a symbol whose name is so close to the end of readable memory that 5 bytes cannot be read from there (as many as are compared with `__ulp`):
it ends the search, and symbols that come after it are not found, whatever they are. -/
theorem C93_name_at_end {p : Proc} {bias dynsym dynstr off : Nat} {l : List Symbol} (hu : Unambiguous l) (hs : HasSymbols p ⟨dynsym, dynstr, l.length⟩ l) (r : Nat)
    (hlt : dynsym + 24 * l.length < 2 ^ 64) (h1 : Readable p (dynsym + 24 * l.length) 4) (h2 : Num p (dynsym + 24 * l.length) 4 off) (h3 : dynstr + off < 2 ^ 64)
    (h4 : ¬ Readable p (dynstr + off) 5) :
    libpulpSymbols p bias ⟨dynsym, dynstr, l.length + (r + 1)⟩ = spec bias l := by
  obtain ⟨-, g2, g3, g4, g5, g6⟩ := hs
  unfold libpulpSymbols
  rw [if_neg (by simp only at g2 g3; simp [g2, g3])]
  obtain ⟨buf', -, e | e⟩ := symLoop_prefix (bias := bias) hu l [] rfl (r + 1) g4 g5 g6 (buf := List.replicate 64 0) (by simp)
  · simp only
    rw [← spec_nil bias, e.1]
  · simp only
    rw [← spec_nil bias, e]
    simp only [symLoop]
    rw [readMem_ok h1]
    simp only
    rw [num_load (show Num p (dynsym + 24 * l.length + 0) 4 off from h2) (by omega), wrap_lt h3]
    have : readMem p (dynstr + off) 5 = none := by
      unfold readMem
      rw [if_neg]
      intro hall
      rw [List.all_eq_true] at hall
      exact h4 (fun i hi => hall i (List.mem_range.mpr hi))
    rw [this]

/-! ### C94: readiness -/

/-- C94: a process with libpulp is reported ready exactly if the constructor of libpulp has run (it sets `load_state`, the first byte of
`__ulp_state`); before, the tools are told to try again later.  Partial as C92 and C93. -/
theorem C94_ready_partial {p : Proc} {bias : Nat} {main : LinkMap} {objs : List Obj} (hp : Program p bias main) (hc : Chain p main.next objs) (syms : Obj → List Symbol)
    (hs : ∀ x ∈ objs, Mentions x → WithSymbols p x (syms x) ∧ Unambiguous (syms x)) {o : Obj} (ho : o ∈ objs) (hm : Mentions o)
    (hone : ∀ x ∈ objs, Mentions x → (Exports x.map.addr (syms x) ↔ x = o)) {state : Nat}
    (hstate : address o.map.addr (syms o) "__ulp_state".toUTF8.toList = some state) (hr : Readable p state 16) :
    ∃ s N, (∀ (i : Nat) n, names[i]? = some n → s[i]? = some (address o.map.addr (syms o) n)) ∧ ∀ fuel, N ≤ fuel →
      inspect p fuel = some (if p.mem state = 0 then .error EAGAIN else .ok (objs.reverse, o, s)) := by
  obtain ⟨dyn, N1, h1, h2⟩ := C92_objects_partial hp hc
  obtain ⟨s, N2, h3, h4⟩ := C93_entry_points_partial hc syms hs ho hm hone
  refine ⟨s, N1 + N2, h4, fun fuel hf => ?_⟩
  unfold inspect
  rw [h1]
  simp only [(h2 fuel (by omega)).1, h3 fuel (by omega)]
  rw [h4 2 "__ulp_state".toUTF8.toList (by decide +kernel), hstate]
  simp only [Option.getD_some]
  rw [readMem_ok (by simpa using hr)]
  simp only
  have e : num (p.mem.load state 16) 0 1 = (p.mem state).toNat := by
    unfold num
    rw [load_drop_take _ _ (by omega)]
    simp [Mem.load, leVal]
  rw [e]
  by_cases hz : p.mem state = 0
  · rw [if_pos hz, if_pos (by rw [hz]; rfl)]
  · rw [if_neg hz, if_neg (show ¬ (p.mem state).toNat = 0 from fun h => hz (UInt8.toNat_inj.mp h))]

/-- C94 is false of a libpulp linked with the GNU style of hash table only: the tools are told to try again later, at every time, if there is nothing at address 0
as usual. -/
theorem C94_gnu_hash {p : Proc} {bias : Nat} {main : LinkMap} {objs : List Obj} (hp : Program p bias main) (hc : Chain p main.next objs) {o : Obj} (ho : o ∈ objs) (hm : Mentions o)
    (hone : ∀ x ∈ objs, Mentions x → x = o) {dyn : List (Nat × Nat)} (h : Loaded p o dyn) (hno : ∀ v, (4, v) ∉ dyn) (h0 : p.readable 0 = false) :
    ∃ N, ∀ fuel, N ≤ fuel → inspect p fuel = some (.error EAGAIN) := by
  obtain ⟨dyn', N1, h1, h2⟩ := C92_objects_partial hp hc
  obtain ⟨N2, h3⟩ := C93_gnu_hash hc ho hm hone h hno
  refine ⟨N1 + N2, fun fuel hf => ?_⟩
  unfold inspect
  rw [h1]
  simp only [(h2 fuel (by omega)).1, h3 fuel (by omega)]
  have : readMem p (((List.replicate 11 (none : Option Nat))[2]?.getD none).getD 0) 16 = none := by
    show readMem p 0 16 = none
    unfold readMem
    rw [if_neg]
    intro hall
    rw [List.all_eq_true] at hall
    have := hall 0 (by decide)
    simp [h0] at this
  rw [this]

/-- C94: without libpulp, nothing else matters. -/
theorem C94_not_loaded {p : Proc} {bias : Nat} {main : LinkMap} {objs : List Obj} (hp : Program p bias main) (hc : Chain p main.next objs) (hno : ∀ x ∈ objs, ¬ Mentions x) :
    ∃ N, ∀ fuel, N ≤ fuel → inspect p fuel = some (.error ENOLIBPULP) := by
  obtain ⟨dyn, N1, h1, h2⟩ := C92_objects_partial hp hc
  obtain ⟨N2, h3⟩ := C93_not_loaded hc hno
  refine ⟨N1 + N2, fun fuel hf => ?_⟩
  unfold inspect
  rw [h1]
  simp only [(h2 fuel (by omega)).1, h3 fuel (by omega)]

/-! ### A process -/

/-- What is in memory: a program at 4096 and libpulp at 8192, with a link map of both; `ready` is `load_state`, `gnu` the style of its hash table. -/
def demoChunks (ready : UInt8) (gnu : Bool) : List (Nat × Bytes) :=
  let str (s : String) : Bytes := s.toUTF8.toList ++ [0]
  let phdr (t v : Nat) : Bytes := le 4 t ++ le 12 0 ++ le 8 v ++ le 32 0
  let dyn (t v : Nat) : Bytes := le 8 t ++ le 8 v
  let sym (n v : Nat) : Bytes := le 4 n ++ le 4 0 ++ le 8 v ++ le 8 0
  [(4160, phdr 6 64 ++ phdr 2 204), (4300, dyn 1 7 ++ dyn 21 4400 ++ dyn 0 0), (4400, le 8 1 ++ le 8 4500),
    (4500, le 8 4096 ++ le 8 4700 ++ le 8 0 ++ le 8 4600 ++ le 8 0), (4600, le 8 8192 ++ le 8 4710 ++ le 8 0 ++ le 8 0 ++ le 8 4500), (4700, str ""), (4710, str "/l/libpulp.so.0"),
    (8192, le 32 0 ++ le 8 64 ++ le 14 0 ++ le 2 56 ++ le 2 2 ++ le 6 0), (8256, phdr 1 0 ++ phdr 2 400),
    (8592, (if gnu then dyn 1879047925 8700 else dyn 4 8700) ++ dyn 5 9000 ++ dyn 6 8800 ++ dyn 0 0), (8700, le 4 1 ++ le 4 8 ++ le 4 0),
    (8800, sym 0 0 ++ sym 1 16 ++ sym 15 32 ++ sym 35 1508 ++ sym 47 48 ++ sym 73 64 ++ sym 90 80 ++ sym 112 96),
    (9000, str "" ++ str "__ulp_trigger" ++ str "__ulp_check_patched" ++ str "__ulp_state" ++ str "__ulp_get_global_universe" ++ str "__ulp_revert_all" ++ str "__ulp_metadata_buffer" ++ str "printf"),
    (9700, [ready])]

def demoProc (ready : UInt8) (gnu : Bool) : Proc where
  readable a := decide (4096 ≤ a ∧ a < 12288)
  mem a := ((demoChunks ready gnu).findSome? fun c => if c.1 ≤ a then c.2[a - c.1]? else none).getD 0
  auxv := [(6, 4096), (3, 4160), (4, 56), (5, 2), (9, 4200)].flatMap (fun x : Nat × Nat => le 8 x.1 ++ le 8 x.2) ++ (le 8 0 ++ le 8 0) ++ []
  ehdr0 := 4096

def demoPulp : Obj := ⟨⟨8192, 4710, 0⟩, "/l/libpulp.so.0".toUTF8.toList⟩

def demoSyms : List Symbol := [⟨[], 0⟩, ⟨names[0]!, 16⟩, ⟨names[1]!, 32⟩, ⟨names[2]!, 1508⟩, ⟨names[3]!, 48⟩, ⟨names[5]!, 64⟩, ⟨names[6]!, 80⟩, ⟨"printf".toUTF8.toList, 96⟩]

theorem forall_get {α : Type} {l : List α} {P : Nat → α → Prop} (h : ∀ i (hi : i < l.length), P i l[i]) : ∀ i x, l[i]? = some x → P i x := by
  intro i x hx
  obtain ⟨hi, rfl⟩ := List.getElem?_eq_some_iff.mp hx
  exact h i hi

theorem only_iff {l : List (Nat × Nat)} {k v : Nat} (h : (k, v) ∈ l ∧ ∀ x ∈ l, x.1 = k → x.2 = v) : Only l k v := ⟨h.1, fun w hw => h.2 _ hw rfl⟩

instance (p : Proc) (a n : Nat) : Decidable (Readable p a n) := inferInstanceAs (Decidable (∀ i, i < n → p.readable (a + i) = true))
instance (p : Proc) (a n v : Nat) : Decidable (Num p a n v) := inferInstanceAs (Decidable (_ ∧ _))

instance (m : Mem) (a : Nat) (l : Bytes) : Decidable (At m a l) := inferInstanceAs (Decidable (_ = _))

theorem demo_program (r : UInt8) (g : Bool) (hr : r = 0 ∨ r = 1) : Program (demoProc r g) 4096 ⟨4096, 4700, 4600⟩ := by
  refine ⟨⟨[(6, 4096), (3, 4160), (4, 56), (5, 2), (9, 4200)], [(6, 64), (2, 204)], [(1, 7), (21, 4400)], 4160, 4200, 64, 204, 4400, 4500,
    ⟨by decide, 0, [], rfl⟩, only_iff (by decide), only_iff (by decide), only_iff (by decide), only_iff (by decide), by decide, by decide, ?_, only_iff (by decide), by decide, by decide,
    only_iff (by decide), by decide, ?_, only_iff (by decide), by decide, ?_⟩⟩
  · rcases hr with rfl | rfl <;> cases g <;> exact ⟨by decide +kernel, forall_get (by decide +kernel)⟩
  · rcases hr with rfl | rfl <;> cases g <;> exact ⟨by decide, by decide +kernel, by decide +kernel, forall_get (by decide +kernel)⟩
  · rcases hr with rfl | rfl <;> cases g <;> decide +kernel

theorem demo_chain (r : UInt8) (g : Bool) (hr : r = 0 ∨ r = 1) : Chain (demoProc r g) 4600 [demoPulp] := by
  rcases hr with rfl | rfl <;> cases g <;>
  exact .cons (by decide) (by decide +kernel) (by decide +kernel) (by decide +kernel) (by decide +kernel)
    ⟨⟨by decide +kernel, by decide +kernel⟩, by decide +kernel⟩ .nil

theorem demo_mentions : Mentions demoPulp := (strstr_mentions _).mp (by decide +kernel)

theorem demo_loaded (r : UInt8) (hr : r = 0 ∨ r = 1) : Loaded (demoProc r false) demoPulp [(4, 8700), (5, 9000), (6, 8800)] := by
  rcases hr with rfl | rfl <;>
  exact ⟨by decide, by decide, by decide +kernel, by decide +kernel, 64, [(1, 0), (2, 400)], 400, by decide +kernel, by decide +kernel, by decide +kernel,
    ⟨by decide +kernel, forall_get (by decide +kernel)⟩, only_iff (by decide), by decide, by decide, ⟨by decide, by decide +kernel, by decide +kernel, forall_get (by decide +kernel)⟩⟩

theorem demo_symbols (r : UInt8) (hr : r = 0 ∨ r = 1) : WithSymbols (demoProc r false) demoPulp demoSyms := by
  refine ⟨⟨_, ⟨8800, 9000, 8⟩, 8700, demo_loaded r hr, only_iff (by decide), only_iff (by decide), only_iff (by decide), by decide, by decide, ?_⟩⟩
  rcases hr with rfl | rfl <;>
  exact ⟨by decide +kernel, by decide +kernel, by decide, by decide, by decide, by decide, by decide, by decide +kernel,
    forall_get (fun i hi => ⟨[0, 1, 15, 35, 47, 73, 90, 112][i]!, by revert i; decide +kernel, by revert i; decide +kernel, by revert i; decide +kernel,
      ⟨by revert i; decide +kernel, by revert i; decide +kernel⟩, by revert i; decide +kernel⟩)⟩

theorem demo_unambiguous : Unambiguous demoSyms := by
  unfold Unambiguous demoSyms
  decide +kernel

theorem demo_exports : Exports demoPulp.map.addr demoSyms := (complete_iff _ _).mp (by decide +kernel)

/-- libpulp is found with its entry points; before its constructor has run the answer is another one. -/
example (r : UInt8) (hr : r = 0 ∨ r = 1) : ∃ s N, s[0]? = some (some 8208) ∧ s[4]? = some none ∧ ∀ fuel, N ≤ fuel →
    inspect (demoProc r false) fuel = some (if r = 0 then .error EAGAIN else .ok ([demoPulp], demoPulp, s)) := by
  obtain ⟨s, N, h1, h2⟩ := C94_ready_partial (demo_program r false hr) (demo_chain r false hr) (fun _ => demoSyms)
    (fun x hx _ => by rw [List.mem_singleton.mp hx]; exact ⟨demo_symbols r hr, demo_unambiguous⟩) (List.mem_singleton_self _) demo_mentions
    (fun x hx _ => by rw [List.mem_singleton.mp hx]; exact ⟨fun _ => rfl, fun _ => demo_exports⟩) (state := 9700) (by decide +kernel)
    (by rcases hr with rfl | rfl <;> decide +kernel)
  refine ⟨s, N, (h1 0 _ (by decide +kernel : names[0]? = some names[0]!)).trans (by decide +kernel),
    (h1 4 _ (by decide +kernel : names[4]? = some names[4]!)).trans (by decide +kernel), fun fuel hf => ?_⟩
  rw [h2 fuel hf, show (demoProc r false).mem 9700 = r by rcases hr with rfl | rfl <;> decide +kernel]
  rfl

theorem demo_gnu : Loaded (demoProc 1 true) demoPulp [(1879047925, 8700), (5, 9000), (6, 8800)] :=
  ⟨by decide, by decide, by decide +kernel, by decide +kernel, 64, [(1, 0), (2, 400)], 400, by decide +kernel, by decide +kernel, by decide +kernel,
    ⟨by decide +kernel, forall_get (by decide +kernel)⟩, only_iff (by decide), by decide, by decide, ⟨by decide, by decide +kernel, by decide +kernel, forall_get (by decide +kernel)⟩⟩

/-- The same libpulp, ready, with the other style of hash table. -/
example : ∃ N, ∀ fuel, N ≤ fuel → inspect (demoProc 1 true) fuel = some (.error EAGAIN) :=
  C94_gnu_hash (demo_program 1 true (Or.inr rfl)) (demo_chain 1 true (Or.inr rfl)) (List.mem_singleton_self _) demo_mentions
    (fun _ hx _ => List.mem_singleton.mp hx) demo_gnu (by intro v; simp) (by decide)

/-- Without libpulp: an empty link map. -/
example : ∃ N, ∀ fuel, N ≤ fuel → parseLibs (demoProc 1 true) ⟨4096, 4700, 0⟩ fuel = some (.error ENOLIBPULP) := C93_not_loaded .nil (by simp)

/-- A program headers table without `PT_PHDR`, at an address that has a bias. -/
example : digLoadBias { demoProc 1 false with auxv := [(3, 4216), (4, 56), (5, 1), (9, 4200)].flatMap (fun x : Nat × Nat => le 8 x.1 ++ le 8 x.2) ++ (le 8 0 ++ le 8 0) ++ [] } = .ok (0, 204) :=
  C92_no_pt_phdr (aux := [(3, 4216), (4, 56), (5, 1), (9, 4200)]) (phs := [(2, 204)]) (phdr := 4216) (entry := 4200) ⟨by decide, 0, [], rfl⟩ (only_iff (by decide)) (only_iff (by decide))
    (only_iff (by decide)) (only_iff (by decide)) (by decide) (by decide) ⟨by decide +kernel, forall_get (by decide +kernel)⟩ (only_iff (by decide)) (by simp)

/-- A dynamic section without the tag. -/
example : digMainLinkMap (demoProc 1 false) 8592 4 = some (.error ENODEBUGTAG) :=
  C92_no_debug_tag (dyn := [(4, 8700), (5, 9000), (6, 8800)]) ⟨by decide, by decide +kernel, by decide +kernel, forall_get (by decide +kernel)⟩ (by simp) (by decide)

/-- As before, but the name of the third symbol is 4 bytes from the end of what can be read. -/
def demoEnd : Proc := { demoProc 1 false with mem := fun a => if 8848 ≤ a ∧ a < 8852 then (le 4 3284)[a - 8848]! else (demoProc 1 false).mem a }

/-- The first two are found, the others are not. -/
example : libpulpSymbols demoEnd 8192 ⟨8800, 9000, 2 + (5 + 1)⟩ = some 8208 :: List.replicate 10 none := by
  refine (C93_name_at_end (p := demoEnd) (bias := 8192) (dynsym := 8800) (dynstr := 9000) (off := 3284) (l := demoSyms.take 2)
    (fun x hx y hy => demo_unambiguous x (List.mem_of_mem_take hx) y (List.mem_of_mem_take hy))
    ⟨by decide +kernel, by decide, by decide, by decide +kernel, by decide +kernel, forall_get (fun i hi => ⟨[0, 1][i]!, by revert i; decide +kernel, by revert i; decide +kernel,
      by revert i; decide +kernel, ⟨by revert i; decide +kernel, by revert i; decide +kernel⟩, by revert i; decide +kernel⟩)⟩ 5
    (by decide) (by decide +kernel) (by decide +kernel) (by decide) (by decide +kernel)).trans ?_
  decide +kernel

/-! ### Further concrete cases -/

example := C92_objects_partial (demo_program 1 false (.inr rfl)) (demo_chain 1 false (.inr rfl))
example := C93_entry_points_partial (main := ⟨4096, 4700, 4600⟩) (demo_chain 1 false (.inr rfl)) (fun _ => demoSyms)
    (fun x hx _ => by rw [List.mem_singleton.mp hx]; exact ⟨demo_symbols 1 (.inr rfl), demo_unambiguous⟩) (List.mem_singleton_self _) demo_mentions
    (fun x hx _ => by rw [List.mem_singleton.mp hx]; exact ⟨fun _ => rfl, fun _ => demo_exports⟩)
example := C93_gnu_hash (main := ⟨4096, 4700, 4600⟩) (demo_chain 1 true (.inr rfl)) (List.mem_singleton_self _) demo_mentions
    (fun _ hx _ => List.mem_singleton.mp hx) demo_gnu (by intro v; simp)

/-- As before, but the library is called "/l/libqulp.so.0". -/
def demoWithout : Proc := { demoProc 1 false with mem := fun a => if a = 4716 then 113 else (demoProc 1 false).mem a }

theorem demo_without_program : Program demoWithout 4096 ⟨4096, 4700, 4600⟩ := by
  refine ⟨⟨[(6, 4096), (3, 4160), (4, 56), (5, 2), (9, 4200)], [(6, 64), (2, 204)], [(1, 7), (21, 4400)], 4160, 4200, 64, 204, 4400, 4500,
    ⟨by decide, 0, [], rfl⟩, only_iff (by decide), only_iff (by decide), only_iff (by decide), only_iff (by decide), by decide, by decide, ?_, only_iff (by decide), by decide, by decide,
    only_iff (by decide), by decide, ?_, only_iff (by decide), by decide, ?_⟩⟩
  · exact ⟨by decide +kernel, forall_get (by decide +kernel)⟩
  · exact ⟨by decide, by decide +kernel, by decide +kernel, forall_get (by decide +kernel)⟩
  · decide +kernel

example : ∃ N, ∀ fuel, N ≤ fuel → inspect demoWithout fuel = some (.error ENOLIBPULP) :=
  C94_not_loaded (objs := [⟨⟨8192, 4710, 0⟩, "/l/libqulp.so.0".toUTF8.toList⟩]) demo_without_program
    (.cons (by decide) (by decide +kernel) (by decide +kernel) (by decide +kernel) (by decide +kernel)
      ⟨⟨by decide +kernel, by decide +kernel⟩, by decide +kernel⟩ .nil)
    (fun x hx => by rw [List.mem_singleton.mp hx, ← strstr_mentions]; decide +kernel)

/-- As before, but the first page of libpulp is not mapped. -/
example : ∃ N, ∀ fuel, N ≤ fuel → parseLibs { demoProc 1 false with readable := fun a => decide (4096 ≤ a ∧ a < 8192) } ⟨4096, 4700, 4600⟩ fuel =
    some (.ok ([demoPulp], demoPulp, List.replicate 11 none)) :=
  C93_headers_elsewhere (objs := [demoPulp]) (.cons (by decide) (by decide +kernel) (by decide +kernel) (by decide +kernel) (by decide +kernel)
    ⟨⟨by decide +kernel, by decide +kernel⟩, by decide +kernel⟩ .nil) (List.mem_singleton_self _) demo_mentions
    (fun _ hx _ => List.mem_singleton.mp hx) (by decide) (.inl (by decide +kernel))

end Verif.Inspect
