import Verif.PropsNum
import Verif.PropsCtorComb
/-!
# C104: an optional number

The example of `opt` in `src/ctor.rs:406-413`: `digit(10).many1().try_map(from_str::<usize>()).opt()`, for every
integer type and radix.
-/

namespace Neure

set_option linter.unusedSectionVars false
set_option linter.unusedSimpArgs false

open Demo

variable {G : Rules Char NumVal}

/-- `num` of `src/ctor.rs:406-409`: `neu::digit(10).many1().try_map(map::from_str::<usize>()).opt()`, where
`signed`, `bits` stand for the integer type and `r` for the radix. -/
def optNumPat (signed : Bool) (bits r : Nat) : Pat Char NumVal := .opt (numPat signed bits r)

/-- **C104.** Where digits stand that write a number of the type, `ctor` with the optional number yields it and goes behind
the digits; where no digit stands, and where the number is too large, it yields `None` and stays. -/
theorem C104_optional_number (signed : Bool) (bits r : Nat) (h2 : 2 ≤ r) (h36 : r ≤ 36)
    (pre rest run : List Char) (hrun : DigitRun r rest run) (x : CRes Unit (Val NumVal)) :
    Constructs G textH none (pre ++ rest) (optNumPat signed bits r) () (blen pre) x ↔
      (run = [] ∧ x = .ok .none () (blen pre)) ∨
      (run ≠ [] ∧ ∃ n, Denotes r run n ∧
        ((InType signed bits n ∧ x = .ok (.some (.base (.num n))) () (blen pre + blen run)) ∨
         (¬ InType signed bits n ∧ x = .ok .none () (blen pre)))) := by
  have hnum := fun x => C60_number G signed bits r h2 h36 pre rest run hrun x
  have hopt := C10_opt_construct (G := G) (H := textH) (pol := none) (d := pre ++ rest) (numPat signed bits r) () (blen pre)
  unfold optNumPat
  cases x with
  | ok v st o' =>
    rw [hopt.1]
    constructor
    · rintro (⟨w, rfl, h⟩ | ⟨rfl, rfl, e, o1, h⟩)
      · rcases (hnum _).mp h with ⟨_, h⟩ | ⟨hne, n, hn, ⟨hi, h⟩ | ⟨_, h⟩⟩
        · cases h
        · cases h; exact .inr ⟨hne, n, hn, .inl ⟨hi, rfl⟩⟩
        · cases h
      · rcases (hnum _).mp h with ⟨he, h⟩ | ⟨hne, n, hn, ⟨_, h⟩ | ⟨hi, h⟩⟩
        · cases h; exact .inl ⟨he, rfl⟩
        · cases h
        · cases h; exact .inr ⟨hne, n, hn, .inr ⟨hi, rfl⟩⟩
    · rintro (⟨he, h⟩ | ⟨hne, n, hn, ⟨hi, h⟩ | ⟨hi, h⟩⟩)
      · cases h; exact .inr ⟨rfl, rfl, .many1, _, (hnum _).mpr (.inl ⟨he, rfl⟩)⟩
      · cases h; exact .inl ⟨_, rfl, (hnum _).mpr (.inr ⟨hne, n, hn, .inl ⟨hi, rfl⟩⟩)⟩
      · cases h; exact .inr ⟨rfl, rfl, .fromStr, _, (hnum _).mpr (.inr ⟨hne, n, hn, .inr ⟨hi, rfl⟩⟩)⟩
  | err e st o' =>
    constructor
    · exact fun h => absurd h (hopt.2.1 _ _ _)
    · rintro (⟨_, h⟩ | ⟨_, n, _, ⟨_, h⟩ | ⟨_, h⟩⟩) <;> cases h
  | panic =>
    rw [hopt.2.2]
    constructor
    · intro h
      rcases (hnum _).mp h with ⟨_, h⟩ | ⟨_, n, _, ⟨_, h⟩ | ⟨_, h⟩⟩ <;> cases h
    · rintro (⟨_, h⟩ | ⟨_, n, _, ⟨_, h⟩ | ⟨_, h⟩⟩) <;> cases h

/-- **C104 (matching).** `try_mat` with the same pattern does not read the number: it goes behind the digits, however
large the number is. -/
theorem C104_optional_number_match (signed : Bool) (bits r : Nat) (h36 : r ≤ 36)
    (pre rest run : List Char) (hrun : DigitRun r rest run) (x : Res Span) :
    Runs G none (pre ++ rest) (optNumPat signed bits r) (blen pre) x ↔
      x = .ok ⟨blen pre, blen run⟩ (blen pre + blen run) := by
  have hu := digitRun_unique h36 hrun
  have hm := C23_many1_takeWhile (β := NumVal) (G := G) (pol := none) (Unit.digit r) pre rest rfl
    (if run = [] then .err .many1 (blen pre) else .ok ⟨blen pre, blen run⟩ (blen pre + blen run))
  rw [← hu] at hm
  have hm := hm.mpr rfl
  rw [parses_iff] at hm
  rw [runs_iff, matL_none]
  unfold optNumPat numPat
  rw [parseL_opt, matL_none, parseL_map, matL_none, hm]
  by_cases h : run = []
  · subst h; simp [caseR, eq_comm]
  · simp [h, caseR, eq_comm]

/-- **C104 (the two differ).** Before a number that is too large `ctor` yields `None` and stays while `try_mat` goes behind
the digits. -/
theorem C104_too_large_counterexample :
    Constructs G0 textH none ['2', '5', '6'] (optNumPat false 8 10) () 0 (.ok .none () 0) ∧
    Runs G0 none ['2', '5', '6'] (optNumPat false 8 10) 0 (.ok ⟨0, 3⟩ 3) :=
  ⟨⟨9, by decide +kernel⟩, ⟨9, by decide +kernel⟩⟩

/-- The example of the documentation: `foo` has no number, `955` has. -/
example : Constructs G0 textH none ['f', 'o', 'o'] (optNumPat false 64 10) () 0 (.ok .none () 0) ∧
    Constructs G0 textH none ['9', '5', '5'] (optNumPat false 64 10) () 0 (.ok (.some (.base (.num 955))) () 3) :=
  ⟨⟨9, by decide +kernel⟩, ⟨9, by decide +kernel⟩⟩

/-- Every text has a leading run of digits. -/
example : DigitRun 10 ['9', '5', 'x'] ['9', '5'] := by
  have h := digitRun_takeWhile (r := 10) (by decide) ['9', '5', 'x']
  have e : ['9', '5', 'x'].takeWhile (Unit.digit 10).isMatch = ['9', '5'] := by decide +kernel
  rw [e] at h; exact h

end Neure
