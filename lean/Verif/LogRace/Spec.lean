import Verif.LogRace.Model

/-!
# Words for the statements about threads that log
-/

namespace Verif.LogRace

/-- Steps of all threads, of which `k` are steps of thread `i` in the push that it is in at the start. -/
inductive During (N : Nat) (P : List UInt8 → Prop) (i : Nat) : Sys → Nat → Sys → Prop where
  | refl {s} : During N P i s 0 s
  | own {s k t sh pc l} : During N P i s k t → (t.th i).1 ≠ .idle → act N t.sh (t.th i).1 (t.th i).2 = some (sh, pc, l) →
      During N P i s (k + 1) ⟨sh, Function.update t.th i (pc, l)⟩
  | other {s k t u} : During N P i s k t → Step N P t u → u.th i = t.th i → During N P i s k u

/-- Steps of thread `i` alone. -/
inductive Alone (N : Nat) (i : Nat) : Sys → Sys → Prop where
  | refl {s} : Alone N i s s
  | tail {s t sh pc l} : Alone N i s t → (t.th i).1 ≠ .idle → act N t.sh (t.th i).1 (t.th i).2 = some (sh, pc, l) →
      Alone N i s ⟨sh, Function.update t.th i (pc, l)⟩

/-- Messages that are logged one at a time: each of the threads named logs its message while no other thread takes a
step. -/
inductive Turns (N : Nat) : Sys → List (Nat × List UInt8) → Sys → Prop where
  | nil {s} : Turns N s [] s
  | cons {s t u i m ms} : (s.th i).1 = .idle → Alone N i (said N s i m) t → (t.th i).1 = .idle → Turns N t ms u →
      Turns N s ((i, m) :: ms) u

/-- Messages that are neither empty nor of exactly the size of the ring. -/
def Ordinary (N : Nat) (m : List UInt8) : Prop := m ≠ [] ∧ m.length + 1 ≠ N

end Verif.LogRace
