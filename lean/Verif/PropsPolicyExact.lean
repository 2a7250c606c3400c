import Verif.PropsPolicy
import Verif.PropsComb
/-!
# C32: what `longest` does under any skip policy
-/

namespace Neure

open Demo

set_option linter.unusedSectionVars false
set_option linter.unusedSimpArgs false

variable {ι β : Type} [Item ι] {G : Rules ι β} {d : List ι}

/-- **C32 (any policy).** The policy is applied once more by each alternative.  The offset
left is the place where the first application stopped plus the length of the winner, which
is the end of the winner exactly when the winner starts there, that is, when the second
application did not move. -/
theorem C32_longest_exact_partial (q a b : Pat ι β) (o : Nat) (s : Span) (o' : Nat) :
    Runs G (some q) d (.longest a b) o (.ok s o') ↔
      ∃ sq o1, Runs G none d q o (.ok sq o1) ∧ o' = o1 + s.len ∧ (o' = s.beg + s.len ↔ s.beg = o1) ∧
        ((∃ oa sb ob, Runs G (some q) d a o1 (.ok s oa) ∧ Runs G (some q) d b o1 (.ok sb ob) ∧ sb.len ≤ s.len) ∨
         (∃ sa oa ob, Runs G (some q) d a o1 (.ok sa oa) ∧ Runs G (some q) d b o1 (.ok s ob) ∧ sa.len < s.len) ∨
         (∃ oa, Runs G (some q) d a o1 (.ok s oa) ∧ Fails G (some q) d b o1) ∨
         (∃ ob, Fails G (some q) d a o1 ∧ Runs G (some q) d b o1 (.ok s ob))) := by
  rw [C31_policy_runs_first]
  constructor
  · rintro (⟨sq, o1, hsq, hp⟩ | ⟨_, _, _, h⟩ | ⟨_, h⟩)
    · obtain ⟨rfl, hw⟩ := ((C07_longest a b o1).1 s o').mp hp
      exact ⟨sq, o1, hsq, rfl, by omega, hw⟩
    · cases h
    · cases h
  · rintro ⟨sq, o1, hsq, rfl, -, hw⟩
    exact .inl ⟨sq, o1, hsq, ((C07_longest a b o1).1 s _).mpr ⟨rfl, hw⟩⟩

/-- The counterexample read with it: the first blank is skipped by `try_mat`, the second by
the alternatives, so the offset is one short. -/
example : ∃ sq o1, Runs (β := Nat) G0 none [' ', ' ', 'a', 'b'] (.optU (.item ' ') .empty) 0 (.ok sq o1) ∧
    3 = o1 + 2 ∧ (3 = 2 + 2 ↔ 2 = o1) := by
  obtain ⟨sq, o1, h, h1, h2, -⟩ := (C32_longest_exact_partial _ _ _ _ _ _).mp C32_longest_policy_counterexample
  exact ⟨sq, o1, h, h1, h2⟩

end Neure
