import Verif.Spec
/-!
# Concrete grammars used to show that hypotheses are satisfiable
-/

namespace Neure.Demo

open Neure

/-- No recursive rules. -/
def G0 {ι β : Type} : Rules ι β := fun _ => none

/-- Body of a recursive pattern for nested parentheses:
`'(' self* ')'`. -/
def parens : Pat Char Nat := .enclose (.lit ['(']) (.rep (.cell 0) ⟨.unb, .unb⟩) (.lit [')'])

/-- Its rule environment: cell 0 holds `parens`. -/
def GP : Rules Char Nat := fun i => if i = 0 then some parens else none

/-- The patterns reachable from `parens`. -/
def InParens (q : Pat Char Nat) : Prop :=
  q = parens ∨ q = .lit ['('] ∨ q = .rep (.cell 0) ⟨.unb, .unb⟩ ∨ q = .lit [')'] ∨ q = .cell 0

theorem inParens_closed (q r : Pat Char Nat) (h : InParens q) (hc : Child GP r q) : InParens r := by
  rcases h with rfl | rfl | rfl | rfl | rfl <;> simp [Child, parens, GP] at hc
  · rcases hc with rfl | rfl | rfl <;> simp [InParens]
  · subst hc; simp [InParens]
  · subst hc; simp [InParens, parens]

/-- Any local condition that holds of the five patterns holds of everything
reachable from the recursive grammar. -/
theorem all_parens {P : Pat Char Nat → Prop} (h1 : P parens) (h2 : P (.lit ['(']))
    (h3 : P (.rep (.cell 0) ⟨.unb, .unb⟩)) (h4 : P (.lit [')'])) (h5 : P (.cell 0)) :
    All GP P parens := by
  refine All.coind InParens (.inl rfl) ?_ inParens_closed
  rintro q (rfl | rfl | rfl | rfl | rfl) <;> assumption

/-- A literal has no components. -/
theorem all_lit {ι β : Type} {G : Rules ι β} {P : Pat ι β → Prop} {l : List ι} (h : P (.lit l)) :
    All G P (.lit l) := All.intro h fun _ hc => absurd hc id

/-- A policy skipping spaces: `' '.many0()`. -/
def spaces : Pat Char Nat := .many0 (.item ' ') .empty

theorem all_spaces {G : Rules Char Nat} {P : Pat Char Nat → Prop} (h : P spaces) :
    All G P spaces := All.intro h fun _ hc => absurd hc id

end Neure.Demo
