import Verif.PropsLoop
/-!
# C14, C16, C17, C50: when a repetition, a separated list or a branch panics while matching

The third possibility beside the success and failure of `C14_repeat2_partial`, `C16_sep` and
`C17_sep2_exact_partial`.
-/

namespace Neure

set_option linter.unusedSectionVars false
set_option linter.unusedSimpArgs false

open Demo

variable {ι β : Type} [Item ι] {G : Rules ι β} {pol : Option (Pat ι β)} {d : List ι}

/-- The element at `o1` panics, or lies so that it cannot be joined to what has been matched
(`t`, `src/span.rs:50-54`). -/
def ElementPanics (G : Rules ι β) (pol : Option (Pat ι β)) (d : List ι) (p : Pat ι β) (t : Span) (o1 : Nat) :
    Prop :=
  Runs G pol d p o1 .panic ∨ ∃ s o2, Runs G pol d p o1 (.ok s o2) ∧ ∀ u, ¬ Hull t s u

/-- The same for an element and its separator; `skip`: an element without separator is kept. -/
def ItemPanics (G : Rules ι β) (pol : Option (Pat ι β)) (d : List ι) (p s : Pat ι β) (skip : Bool) (t : Span)
    (o1 : Nat) : Prop :=
  Runs G pol d p o1 .panic ∨ ∃ sp o2, Runs G pol d p o1 (.ok sp o2) ∧
    (Runs G pol d s o2 .panic ∨
     (∃ ss o3, Runs G pol d s o2 (.ok ss o3) ∧ ∀ u v, Hull t sp u → ¬ Hull u ss v) ∨
     (skip = true ∧ Fails G pol d s o2 ∧ ∀ u, ¬ Hull t sp u))

/-- **C14.** Matching `p.repeat2::<M,N>()` panics exactly when one of the first `N + 1`
elements does. -/
theorem C14_repeat2_panic_partial (p : Pat ι β) (m n : Nat) (o : Nat) :
    Parses G pol d (.rep2 p m n) o .panic ↔
      ∃ k t o1, k ≤ n ∧ Applied G pol d p k ⟨o, 0⟩ o t o1 ∧ ElementPanics G pol d p t o1 := by
  simp only [parses_iff, parseL_rep2, repL_iff, finish_panic, Nat.zero_add, and_false, false_or, false_and,
    exists_false, decide_eq_true_eq, true_and, ElementPanics]
  constructor
  · rintro ⟨k, t, o1, ha, hj, hk, h⟩; exact ⟨k, t, o1, hk, ha, h⟩
  · rintro ⟨k, t, o1, hk, ha, h⟩; exact ⟨k, t, o1, ha, fun j hj => by omega, hk, h⟩

/-- **C16.** Matching `p.sep(s)` panics exactly when an element or separator does. -/
theorem C16_sep_panic (p s : Pat ι β) (skip : Bool) (min : Nat) (o : Nat) :
    Parses G pol d (.sep p s skip min) o .panic ↔
      ∃ k t o1, AppliedSep G pol d p s k ⟨o, 0⟩ o t o1 ∧ ItemPanics G pol d p s skip t o1 := by
  simp only [parses_iff, parseL_sep, sepL_iff, finish_panic, Nat.zero_add, and_false, false_or, false_and,
    exists_false, decide_eq_true_eq, true_and, and_true, or_false, ItemPanics, implies_true, reduceCtorEq, Fails]
  constructor
  · rintro ⟨k, t, o1, ha, ⟨sp, o2, e, o3, h1, h2, h3, h4⟩ | h | ⟨sp, o2, h1, h | h⟩⟩
    · exact ⟨k, t, o1, ha, .inr ⟨sp, o2, h1, .inr (.inr ⟨h3, ⟨e, o3, h2⟩, h4⟩)⟩⟩
    · exact ⟨k, t, o1, ha, .inl h⟩
    · exact ⟨k, t, o1, ha, .inr ⟨sp, o2, h1, .inl h⟩⟩
    · exact ⟨k, t, o1, ha, .inr ⟨sp, o2, h1, .inr (.inl h)⟩⟩
  · rintro ⟨k, t, o1, ha, h | ⟨sp, o2, h1, h | h | ⟨h3, ⟨e, o3, h2⟩, h4⟩⟩⟩
    · exact ⟨k, t, o1, ha, .inr (.inl h)⟩
    · exact ⟨k, t, o1, ha, .inr (.inr ⟨sp, o2, h1, .inl h⟩)⟩
    · exact ⟨k, t, o1, ha, .inr (.inr ⟨sp, o2, h1, .inr h⟩)⟩
    · exact ⟨k, t, o1, ha, .inl ⟨sp, o2, e, o3, h1, h2, h3, h4⟩⟩

/-- **C17.** Matching `p.sep2::<M,N>(s)` panics exactly when one of the first `N + 1` elements or
separators does. -/
theorem C17_sep2_panic_partial (p s : Pat ι β) (skip : Bool) (m n : Nat) (o : Nat) :
    Parses G pol d (.sep2 p s skip m n) o .panic ↔
      ∃ k t o1, k ≤ n ∧ AppliedSep G pol d p s k ⟨o, 0⟩ o t o1 ∧ ItemPanics G pol d p s skip t o1 := by
  simp only [parses_iff, parseL_sep2, sepL_iff, finish_panic, Nat.zero_add, and_false, false_or, false_and,
    exists_false, decide_eq_true_eq, true_and, and_true, or_false, ItemPanics, implies_true, reduceCtorEq, Fails]
  constructor
  · rintro ⟨k, t, o1, ha, -, hk, ⟨sp, o2, e, o3, h1, h2, h3, h4⟩ | h | ⟨sp, o2, h1, h | h⟩⟩
    · exact ⟨k, t, o1, hk, ha, .inr ⟨sp, o2, h1, .inr (.inr ⟨h3, ⟨e, o3, h2⟩, h4⟩)⟩⟩
    · exact ⟨k, t, o1, hk, ha, .inl h⟩
    · exact ⟨k, t, o1, hk, ha, .inr ⟨sp, o2, h1, .inl h⟩⟩
    · exact ⟨k, t, o1, hk, ha, .inr ⟨sp, o2, h1, .inr (.inl h)⟩⟩
  · rintro ⟨k, t, o1, hk, ha, h | ⟨sp, o2, h1, h | h | ⟨h3, ⟨e, o3, h2⟩, h4⟩⟩⟩ <;>
      refine ⟨k, t, o1, ha, fun j hj => by omega, hk, ?_⟩
    · exact .inr (.inl h)
    · exact .inr (.inr ⟨sp, o2, h1, .inl h⟩)
    · exact .inr (.inr ⟨sp, o2, h1, .inr h⟩)
    · exact .inl ⟨sp, o2, e, o3, h1, h2, h3, h4⟩

/-- **C50.** Matching `branch` panics exactly when the test does or the side it chose. -/
theorem C50_branch_panic (t : List ι → Nat → Out Bool) (p q : Pat ι β) (o : Nat) :
    Parses G pol d (.branch t p q) o .panic ↔
      t d o = .panic ∨ (t d o = .ok true ∧ Runs G pol d p o .panic) ∨
      (t d o = .ok false ∧ Runs G pol d q o .panic) := by
  simp only [parses_iff, runs_iff, parseL_branch]
  unfold caseO
  rcases t d o with (_ | _) | _ | _ <;> simp [caseR_some]

/-- A pattern that panics on its second occurrence: `ltm` leaves the position inside its span,
where what follows ends before that span does. -/
example : ∃ k t o1, k ≤ 3 ∧ Applied (β := Nat) G0 none ['a', 'b', 'a', 'c'] (.or (.lit ['a'])
    (.thn (.ltm .array [(.lit ['b', 'a', 'c'], none), (.lit ['b'], none)]) (.lit ['a']))) k ⟨0, 0⟩ 0 t o1 ∧
    ElementPanics (β := Nat) G0 none ['a', 'b', 'a', 'c'] (.or (.lit ['a'])
    (.thn (.ltm .array [(.lit ['b', 'a', 'c'], none), (.lit ['b'], none)]) (.lit ['a']))) t o1 :=
  (C14_repeat2_panic_partial _ 1 3 0).mp ⟨9, by decide⟩

example : ∃ k t o1, AppliedSep (β := Nat) G0 none ['a', ',', 'b', 'a', 'c'] (.or (.lit ['a'])
    (.thn (.ltm .array [(.lit ['b', 'a', 'c'], none), (.lit ['b'], none)]) (.lit ['a']))) (.lit [',']) k ⟨0, 0⟩ 0 t o1 ∧
    ItemPanics (β := Nat) G0 none ['a', ',', 'b', 'a', 'c'] (.or (.lit ['a'])
    (.thn (.ltm .array [(.lit ['b', 'a', 'c'], none), (.lit ['b'], none)]) (.lit ['a']))) (.lit [',']) true t o1 :=
  (C16_sep_panic _ _ true 1 0).mp ⟨9, by decide⟩

example : ∃ k t o1, k ≤ 2 ∧ AppliedSep (β := Nat) G0 none ['a', ',', 'b', 'a', 'c'] (.or (.lit ['a'])
    (.thn (.ltm .array [(.lit ['b', 'a', 'c'], none), (.lit ['b'], none)]) (.lit ['a']))) (.lit [',']) k ⟨0, 0⟩ 0 t o1 ∧
    ItemPanics (β := Nat) G0 none ['a', ',', 'b', 'a', 'c'] (.or (.lit ['a'])
    (.thn (.ltm .array [(.lit ['b', 'a', 'c'], none), (.lit ['b'], none)]) (.lit ['a']))) (.lit [',']) true t o1 :=
  (C17_sep2_panic_partial _ _ true 1 2 0).mp ⟨9, by decide⟩

end Neure
