import Verif.PropsCtorComb
import Verif.PropsCtorLoop
/-!
# C07, C08, C09, C13, C16, C50: when building a value panics

The third possibility beside the success and failure of `C07_longest_construct`,
`C08_*_construct`, `C09_ifThen_construct`, `C13_repeat_construct`, `C16_sep_construct` and
`C50_branch_construct`: exactly when a part that is reached panics.
-/

namespace Neure

set_option linter.unusedSectionVars false
set_option linter.unusedSimpArgs false

open Demo

variable {ι β σ : Type} [Item ι] {G : Rules ι β} {H : Handler ι β σ} {pol : Option (Pat ι β)} {d : List ι}

/-- **C07 (`longest`, constructing).** Both sides are always built: it panics exactly when the first
does, or the second behind any result of the first. -/
theorem C07_longest_construct_panic (a b : Pat ι β) (st : σ) (o : Nat) :
    Constructs G H pol d (.longest a b) st o .panic ↔
      Constructs G H pol d a st o .panic ∨
      (∃ v st1 o1, Constructs G H pol d a st o (.ok v st1 o1) ∧ Constructs G H pol d b st1 o .panic) ∨
      (∃ e st1 o1, Constructs G H pol d a st o (.err e st1 o1) ∧ Constructs G H pol d b st1 o .panic) := by
  simp only [con_iff, conL_longest, caseC_some]
  grind

/-- **C08.** `prefix`, `suffix`, `enclose` and `sep_once` panic while building exactly when a part
that is reached does. -/
theorem C08_panic_construct (a b c : Pat ι β) (st : σ) (o : Nat) :
    (Constructs G H pol d (.pre a b) st o .panic ↔
      Runs G pol d a o .panic ∨
      ∃ s o1, Runs G pol d a o (.ok s o1) ∧ Constructs G H pol d b st o1 .panic) ∧
    (Constructs G H pol d (.suf a b) st o .panic ↔
      Constructs G H pol d a st o .panic ∨
      ∃ v st1 o1, Constructs G H pol d a st o (.ok v st1 o1) ∧ Runs G pol d b o1 .panic) ∧
    (Constructs G H pol d (.enclose a b c) st o .panic ↔
      Runs G pol d a o .panic ∨
      ∃ s o1, Runs G pol d a o (.ok s o1) ∧ (Constructs G H pol d b st o1 .panic ∨
        ∃ v st1 o2, Constructs G H pol d b st o1 (.ok v st1 o2) ∧ Runs G pol d c o2 .panic)) ∧
    (Constructs G H pol d (.sepOnce a b c) st o .panic ↔
      Constructs G H pol d a st o .panic ∨
      ∃ v st1 o1, Constructs G H pol d a st o (.ok v st1 o1) ∧ (Runs G pol d b o1 .panic ∨
        ∃ s o2, Runs G pol d b o1 (.ok s o2) ∧ Constructs G H pol d c st1 o2 .panic)) := by
  simp only [con_iff, run_iff, conL_pre, conL_suf, conL_enclose, conL_sepOnce, caseC_some, caseM_some]
  grind

/-- **C09.** `a.if_then(t, b)` panics while building exactly when `a` does, or the test behind `a`,
or `b` behind a test that succeeded. -/
theorem C09_ifThen_construct_panic (a t b : Pat ι β) (st : σ) (o : Nat) :
    Constructs G H pol d (.ifThen a t b) st o .panic ↔
      Constructs G H pol d a st o .panic ∨
      ∃ v st1 o1, Constructs G H pol d a st o (.ok v st1 o1) ∧ (Runs G pol d t o1 .panic ∨
        ∃ s o2, Runs G pol d t o1 (.ok s o2) ∧ Constructs G H pol d b st1 o2 .panic) := by
  simp only [con_iff, run_iff, conL_ifThen, caseC_some, caseM_some]
  grind

/-- **C50.** `branch` panics while building exactly when the test does or the side it chose. -/
theorem C50_branch_construct_panic (t : List ι → Nat → Out Bool) (a b : Pat ι β) (st : σ) (o : Nat) :
    Constructs G H pol d (.branch t a b) st o .panic ↔
      t d o = .panic ∨ (t d o = .ok true ∧ Constructs G H pol d a st o .panic) ∨
      (t d o = .ok false ∧ Constructs G H pol d b st o .panic) := by
  simp only [con_iff, conL_branch]
  unfold caseT
  rcases t d o with (_ | _) | _ | _ <;> simp [caseC_some]

/-- **C13.** `p.repeat(r)` panics while building exactly when an element does before the range is
exhausted. -/
theorem C13_repeat_construct_panic (p : Pat ι β) (r : CRange) (st : σ) (o : Nat) :
    Constructs G H pol d (.rep p r) st o .panic ↔
      ∃ vs st1 o1, Built G H pol d p vs st o st1 o1 ∧ r.hi.allowsUpTo (vs.length + 1) ∧
        Constructs G H pol d p st1 o1 .panic := by
  rw [constructs_iff, conL_rep, conRepL_iff]
  simp only [conFinish_panic, Nat.zero_add, and_false, false_or, exists_false, true_and, false_and,
    or_false, and_true, reduceCtorEq]
  constructor
  · rintro ⟨vs, st1, o1, hb, hj, hm, hp⟩
    exact ⟨vs, st1, o1, hb, more_iff.mp hm, hp⟩
  · rintro ⟨vs, st1, o1, hb, hj, hp⟩
    exact ⟨vs, st1, o1, hb, fun j h => more_iff.mpr (Bound.allowsUpTo_mono (by omega) hj), more_iff.mpr hj, hp⟩

/-- **C16.** `p.sep(s)` panics while building exactly when an element or a separator does. -/
theorem C16_sep_construct_panic (p s : Pat ι β) (skip : Bool) (min : Nat) (st : σ) (o : Nat) :
    Constructs G H pol d (.sep p s skip min) st o .panic ↔
      ∃ vs st1 o1, BuiltSep G H pol d p s vs st o st1 o1 ∧ (Constructs G H pol d p st1 o1 .panic ∨
        ∃ v st2 o2, Constructs G H pol d p st1 o1 (.ok v st2 o2) ∧ Runs G pol d s o2 .panic) := by
  rw [constructs_iff, conL_sep, conSepL_iff]
  simp only [conFinish_panic, Nat.zero_add, and_false, false_or, exists_false, true_and, false_and,
    or_false, and_true, reduceCtorEq, implies_true, Bool.false_eq_true, Bool.true_eq_false, or_self]

/-- A mapper that panics (`unwrap` on an error) for the number 2 only. -/
def unwrapTwo : Val Nat → Out (Val Nat)
  | .base 2 => .panic
  | v => .ok v

/-- Three elements, the last of which the mapper does not take: the loop panics if it gets there. -/
example : Constructs (σ := Nat) G0 lenH none ['a', 'a', 'b', 'b']
      (.rep (.map (.or (.lit ['a']) (.lit ['b', 'b'])) unwrapTwo) ⟨.incl 1, .incl 3⟩) 0 0 .panic ∧
    (∃ v st' o', Constructs (σ := Nat) G0 lenH none ['a', 'a', 'b', 'b']
      (.rep (.map (.or (.lit ['a']) (.lit ['b', 'b'])) unwrapTwo) ⟨.incl 1, .incl 2⟩) 0 0 (.ok v st' o')) :=
  ⟨⟨9, by decide⟩, .list [.base 1, .base 1], 2, 2, 9, by decide⟩

example : Constructs (σ := Nat) G0 lenH none ['a', ',', 'b', 'b']
      (.sep (.map (.or (.lit ['a']) (.lit ['b', 'b'])) unwrapTwo) (.lit [',']) true 1) 0 0 .panic ∧
    Constructs (σ := Nat) G0 lenH none ['(', 'b', 'b', ')']
      (.enclose (.lit ['(']) (.map (.lit ['b', 'b']) unwrapTwo) (.lit [')'])) 0 0 .panic ∧
    Constructs (σ := Nat) G0 lenH none ['a', 'b', 'b']
      (.ifThen (.lit ['a']) (.lit ['b']) (.map (.lit ['b']) unwrapTwo)) 0 0 (.ok (.pair (.base 1) (.some (.base 1))) 2 3) ∧
    Constructs (σ := Nat) G0 lenH none ['a', 'b', 'b', 'b']
      (.ifThen (.lit ['a']) (.lit ['b']) (.map (.lit ['b', 'b']) unwrapTwo)) 0 0 .panic ∧
    Constructs (σ := Nat) G0 lenH none ['b', 'b']
      (.longest (.lit ['b']) (.map (.lit ['b', 'b']) unwrapTwo)) 0 0 .panic ∧
    Constructs (σ := Nat) G0 lenH none ['b', 'b']
      (.branch (fun _ _ => .ok false) (.lit ['b']) (.map (.lit ['b', 'b']) unwrapTwo)) 0 0 .panic :=
  ⟨⟨9, by decide⟩, ⟨9, by decide⟩, ⟨9, by decide⟩, ⟨9, by decide⟩, ⟨9, by decide⟩, ⟨9, by decide⟩⟩

end Neure
