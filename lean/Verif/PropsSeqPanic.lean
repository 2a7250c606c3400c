import Verif.PropsComb
import Verif.PropsCtorComb
import Verif.PropsSepExact
/-!
# C08, C09, C18, C21: when sequences, continuations and dynamic patterns panic

What is left open by `C08_*`, `C09_if_then`, `C18_sepCollect_exact_partial`, `C21_regex_builder` and
`C21_dthen_construct`: a part that is reached panics, or two spans lie so that they cannot be
joined (`src/span.rs:50-54`).
-/

namespace Neure

set_option linter.unusedSectionVars false
set_option linter.unusedSimpArgs false

open Demo

variable {ι β σ : Type} [Item ι] {G : Rules ι β} {H : Handler ι β σ} {pol : Option (Pat ι β)} {d : List ι}

/-- Two parts in a row panic: one of them does, or their spans cannot be joined. -/
def PanicsInSequence2 (G : Rules ι β) (pol : Option (Pat ι β)) (d : List ι) (p a b : Pat ι β) (o : Nat) : Prop :=
  Parses G pol d p o .panic ↔
    Runs G pol d a o .panic ∨
    ∃ s1 o1, Runs G pol d a o (.ok s1 o1) ∧
      (Runs G pol d b o1 .panic ∨ ∃ s2 o2, Runs G pol d b o1 (.ok s2 o2) ∧ ∀ u, ¬ Hull s1 s2 u)

/-- **C08.** Matching `then`, `prefix` and `suffix`. -/
theorem C08_pair_panic (a b : Pat ι β) (o : Nat) :
    PanicsInSequence2 G pol d (.thn a b) a b o ∧ PanicsInSequence2 G pol d (.pre a b) a b o ∧
    PanicsInSequence2 G pol d (.suf a b) a b o := by
  simp only [PanicsInSequence2, ← hull_none]
  simp only [parses_iff, runs_iff, parseL_thn, parseL_pre, parseL_suf, seq2, caseR_some, addK_some,
    hull_iff, Option.some.injEq, reduceCtorEq,
    and_false, exists_false, or_false, and_true]

/-- **C08.** Matching `enclose`. -/
theorem C08_enclose_panic (a b c : Pat ι β) (o : Nat) :
    Parses G pol d (.enclose a b c) o .panic ↔
      Runs G pol d a o .panic ∨
      ∃ s1 o1, Runs G pol d a o (.ok s1 o1) ∧ (Runs G pol d b o1 .panic ∨
        ∃ s2 o2, Runs G pol d b o1 (.ok s2 o2) ∧ ((∀ u, ¬ Hull s1 s2 u) ∨
          ∃ u, Hull s1 s2 u ∧ (Runs G pol d c o2 .panic ∨
            ∃ s3 o3, Runs G pol d c o2 (.ok s3 o3) ∧ ∀ w, ¬ Hull u s3 w))) := by
  simp only [← hull_none]
  simp only [parses_iff, runs_iff, parseL_enclose, caseR_some, addK_some, hull_iff, Option.some.injEq, reduceCtorEq,
    and_false, exists_false, or_false, and_true]

/-- **C08.** Matching `sep_once`, which joins each part to an empty span at the start. -/
theorem C08_sep_once_panic (a b c : Pat ι β) (o : Nat) :
    Parses G pol d (.sepOnce a b c) o .panic ↔
      Runs G pol d a o .panic ∨
      ∃ s1 o1, Runs G pol d a o (.ok s1 o1) ∧ ((∀ t, ¬ Hull ⟨o, 0⟩ s1 t) ∨
        ∃ t, Hull ⟨o, 0⟩ s1 t ∧ (Runs G pol d b o1 .panic ∨
          ∃ s2 o2, Runs G pol d b o1 (.ok s2 o2) ∧ ((∀ u, ¬ Hull t s2 u) ∨
            ∃ u, Hull t s2 u ∧ (Runs G pol d c o2 .panic ∨
              ∃ s3 o3, Runs G pol d c o2 (.ok s3 o3) ∧ ∀ w, ¬ Hull u s3 w)))) := by
  simp only [← hull_none]
  simp only [parses_iff, runs_iff, parseL_sepOnce, caseR_some, addK_some, hull_iff, Option.some.injEq, reduceCtorEq,
    and_false, exists_false, or_false, and_true]

/-- **C09.** Matching `a.if_then(t, b)`. -/
theorem C09_if_then_panic (a t b : Pat ι β) (o : Nat) :
    Parses G pol d (.ifThen a t b) o .panic ↔
      Runs G pol d a o .panic ∨
      ∃ s1 o1, Runs G pol d a o (.ok s1 o1) ∧ (Runs G pol d t o1 .panic ∨
        ∃ s2 o2, Runs G pol d t o1 (.ok s2 o2) ∧ ((∀ u, ¬ Hull s1 s2 u) ∨
          ∃ u, Hull s1 s2 u ∧ (Runs G pol d b o2 .panic ∨
            ∃ s3 o3, Runs G pol d b o2 (.ok s3 o3) ∧ ∀ w, ¬ Hull u s3 w))) := by
  simp only [← hull_none]
  simp only [parses_iff, runs_iff, parseL_ifThen, caseR_some, addK_some, hull_iff, Option.some.injEq, reduceCtorEq,
    and_false, exists_false, or_false, and_true]

/-- **C21.** Matching a dynamic pattern panics exactly when the first part, the closure or the pattern
it made does. -/
theorem C21_regex_builder_panic (p : Pat ι β) (f : List ι → Nat → Span → Res (Pat ι β)) (o : Nat) :
    Parses G pol d (.build p f) o .panic ↔
      Runs G pol d p o .panic ∨
      ∃ s1 o1, Runs G pol d p o (.ok s1 o1) ∧ (f d o1 s1 = .panic ∨
        ∃ q o2, f d o1 s1 = .ok q o2 ∧ Runs G pol d q o2 .panic) := by
  simp only [parses_iff, runs_iff, parseL_build, caseR_some, Option.some.injEq]
  grind

/-- **C21 (constructing).** The same for `dyn_then_ctor`. -/
theorem C21_dthen_construct_panic (p : Pat ι β) (f : List ι → Nat → Val β → Res (Pat ι β)) (st : σ) (o : Nat) :
    Constructs G H pol d (.dthen p f) st o .panic ↔
      Constructs G H pol d p st o .panic ∨
      ∃ v st1 o1, Constructs G H pol d p st o (.ok v st1 o1) ∧ (f d o1 v = .panic ∨
        ∃ q o2, f d o1 v = .ok q o2 ∧ Constructs G H pol d q st1 o2 .panic) := by
  simp only [con_iff, conL_dthen, caseC_some, caseM_some, Option.some.injEq]
  grind

/-- **C18 (constructing).** `p.sep_collect(s)` panics exactly when an element or separator does, the one
tried once more after a last element without separator included. -/
theorem C18_sepCollect_panic_partial (p s : Pat ι β) (skip : Bool) (min : Nat) (st : σ) (o : Nat) :
    Constructs G H pol d (.sepCollect p s skip min) st o .panic ↔
      ∃ vs st1 o1, BuiltSep G H pol d p s vs st o st1 o1 ∧
        (Constructs G H pol d p st1 o1 .panic ∨
         ∃ v st2 o2, Constructs G H pol d p st1 o1 (.ok v st2 o2) ∧
          (Runs G pol d s o2 .panic ∨
           (skip = true ∧ ∃ e o3, Runs G pol d s o2 (.err e o3) ∧
             (Constructs G H pol d p st2 o3 .panic ∨
              ∃ w st3 o4, Constructs G H pol d p st2 o3 (.ok w st3 o4) ∧ Runs G pol d s o4 .panic)))) := by
  rw [constructs_iff, conL_sepCollect, conSepCL_iff]
  simp only [ended_iff, conFinish_panic, implies_true, List.nil_append, and_self,
      Nat.zero_add, and_false, false_or, false_and, or_false, ge_iff_le, exists_false,
      reduceCtorEq, true_and, and_true, Nat.not_le]
  grind

/-- A sequence whose first part (an `ltm` list) leaves the position inside its span. -/
example : Parses (β := Nat) G0 none ['b', 'a', 'c'] (.thn (.ltm .array [(.lit ['b', 'a', 'c'], none), (.lit ['b'], none)])
      (.lit ['a'])) 0 .panic ∧
    Parses (β := Nat) G0 none ['b', 'a', 'c'] (.build (.lit ['b']) fun _ _ _ => .panic) 0 .panic ∧
    Constructs (σ := Nat) G0 lenH none ['a', 'a'] (.sepCollect (.dthen (.lit ['a']) fun _ o _ =>
      if o = 1 then .ok (.lit []) o else .panic) (.lit [',']) true 1) 0 0 .panic :=
  ⟨⟨9, by decide⟩, ⟨9, by decide⟩, ⟨9, by decide⟩⟩

end Neure
