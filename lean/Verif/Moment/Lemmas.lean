import Verif.Moment.Model
import Verif.Tools.Lemmas

namespace Verif.Moment

open Verif.Runtime (Applied Request)

/-- The steps of the tools alone. -/
theorem Steps.tools {fuel main crash r c l d} (h : Steps fuel main crash r c l d) : Tools.Steps fuel main crash c.t l d.t := by
  induction h with
  | refl => exact .refl
  | tail _ h ih =>
    cases h with
    | tools h _ => exact .tail ih h
    | begin _ _ => simpa using ih
    | read _ => simpa using ih
    | finish _ => simpa using ih
    | fail => simpa using ih

theorem Steps.trans {fuel main crash r c d e l l'} (h : Steps fuel main crash r c l d) (h' : Steps fuel main crash r d l' e) :
    Steps fuel main crash r c (l ++ l') e := by
  induction h' with
  | refl => rw [List.append_nil]; exact h
  | tail _ h2 ih => rw [← List.append_assoc]; exact .tail ih h2

/-- A tool that has the main thread but is not inside keeps all others out. -/
theorem quiet {main r : Nat} {c : Tools.Conf} (hh : Tools.Held main c) (h1 : c.phase r = .scan) (h2 : c.tracer main = some r) : c.Quiet := by
  rintro i ⟨k, hk⟩
  have := hh.all i k hk main hh.main
  rw [h2, Option.some.injEq] at this
  subst this
  rw [h1] at hk; cases hk

/-- Then the state of the process stays. -/
theorem still {fuel main crash r o} {c d : Tools.Conf} (hh : Tools.Held main c) (h1 : c.phase r = .scan) (h2 : c.tracer main = some r)
    (h : Tools.Step fuel main crash c o d) : d.s = c.s := by
  cases h with
  | work i k k' s' hp hk => exact absurd ⟨k, hp⟩ (quiet hh h1 h2 i)
  | _ => rfl

/-- What has been read, since `b`. -/
def Read (fuel main : Nat) (crash : Bool) (r : Nat) (b : Conf) (l : List (Nat × Request × Nat)) (c : Conf) : Prop :=
  match c.v with
  | .idle => True
  | .reading got => c.t.phase r = .scan ∧ c.t.tracer main = some r ∧ got <+: c.t.s.patches
  | .shown got ok => ∃ l1 l2 e, l = l1 ++ l2 ∧ Steps fuel main crash r b l1 e ∧ e.t.Quiet ∧ got <+: e.t.s.patches ∧
      (ok = true → got = e.t.s.patches)

theorem prefix_next {α} {a l : List α} {x : α} (h : a <+: l) (hx : l[a.length]? = some x) : (a ++ [x]) <+: l := by
  obtain ⟨r, rfl⟩ := h
  rw [List.getElem?_append_right (Nat.le_refl _), Nat.sub_self] at hx
  cases r with
  | nil => simp at hx
  | cons y r =>
    simp only [List.getElem?_cons_zero, Option.some.injEq] at hx
    subst hx
    exact ⟨r, by simp⟩

theorem prefix_end {α} {a l : List α} (h : a <+: l) (hx : l[a.length]? = none) : a = l := by
  obtain ⟨r, rfl⟩ := h
  rw [List.getElem?_append_right (Nat.le_refl _), Nat.sub_self] at hx
  cases r with
  | nil => simp
  | cons y r => simp at hx

theorem read_steps {fuel main crash r b l c} (hb : b.v = .idle) (hh : Tools.Held main b.t) (h : Steps fuel main crash r b l c) :
    Read fuel main crash r b l c := by
  induction h with
  | refl => simp [Read, hb]
  | @tail l d e o h1 h2 ih =>
    have hd : Tools.Held main d.t := Tools.held_steps hh h1.tools
    cases h2 with
    | @tools c o d' v hs hk =>
      cases v with
      | idle => trivial
      | reading got =>
        obtain ⟨a1, a2, a3⟩ := ih
        obtain ⟨k1, k2⟩ := hk got rfl
        refine ⟨k2, k1, ?_⟩
        rw [still hd a1 a2 hs]
        exact a3
      | shown got ok =>
        obtain ⟨l1, l2, e, e1, e2⟩ := ih
        exact ⟨l1, l2 ++ o.toList, e, by rw [e1, List.append_assoc], e2⟩
    | begin g1 g2 => exact ⟨g1, g2, List.nil_prefix⟩
    | read hp =>
      obtain ⟨a1, a2, a3⟩ := ih
      exact ⟨a1, a2, prefix_next a3 hp⟩
    | finish hp =>
      obtain ⟨a1, a2, a3⟩ := ih
      exact ⟨l, [], _, by simp, h1, quiet hd a1 a2, a3, fun _ => prefix_end a3 hp⟩
    | fail =>
      obtain ⟨a1, a2, a3⟩ := ih
      exact ⟨l, [], _, by simp, h1, quiet hd a1 a2, a3, by simp⟩

/-- The listing, at work on a process that nobody else is at work on. -/
theorem reads {fuel main crash r} (c : Tools.Conf) (got : List Applied) (h : got <+: c.s.patches) :
    Steps fuel main crash r ⟨c, .reading got⟩ [] ⟨c, .shown c.s.patches true⟩ := by
  obtain ⟨rest, hr⟩ := h
  induction rest generalizing got with
  | nil =>
    have e : got = c.s.patches := by simpa using hr
    have := Steps.tail .refl (Step.finish (fuel := fuel) (main := main) (crash := crash) (r := r) (c := c) (got := got)
      (by rw [e]; simp))
    rw [e] at this ⊢
    simpa using this
  | cons x rest ih =>
    have s1 := Steps.tail .refl (Step.read (fuel := fuel) (main := main) (crash := crash) (r := r) (c := c) (got := got) (p := x)
      (by rw [← hr, List.getElem?_append_right (Nat.le_refl _)]; simp))
    have s2 := ih (got ++ [x]) (by simpa using hr)
    simpa using s1.trans s2

/-- Steps of other tools while the listing does not read. -/
theorem lift {fuel main crash r c l d} (v : View) (hv : ∀ got, v ≠ .reading got) (h : Tools.Steps fuel main crash c l d) :
    Steps fuel main crash r ⟨c, v⟩ l ⟨d, v⟩ := by
  induction h with
  | refl => exact .refl
  | tail _ h ih => exact .tail ih (.tools h (fun got e => absurd e (hv got)))

end Verif.Moment
