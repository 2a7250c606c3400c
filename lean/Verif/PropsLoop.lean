import Verif.LoopLemmas
import Verif.Demo
/-!
# C13–C17 (matching mode): repetition and separated lists
-/

namespace Neure

set_option linter.unusedSectionVars false
set_option linter.unusedSimpArgs false

open Demo

variable {ι β : Type} [Item ι] {G : Rules ι β} {pol : Option (Pat ι β)} {d : List ι}

/-! ## C13: `repeat(range)` -/

/-- **C13.** `p.repeat(r)` from `o`: `k` consecutive applications of `p` succeed
(`Applied`), where `k` is the first count at which either the upper bound of `r`
forbids one more, or `p` fails.  Success iff `k` is in the range, with the span
covering all `k` applications and the offset where the last attempt left it;
otherwise `Error::Repeat` and the offset is `o` again. -/
theorem C13_repeat (p : Pat ι β) (r : CRange) (o : Nat) :
    (∀ s o', Parses G pol d (.rep p r) o (.ok s o') ↔
      ∃ k o1, Applied G pol d p k ⟨o, 0⟩ o s o1 ∧ r.lo.allowsFrom k ∧ r.hi.allowsUpTo k ∧
        ((¬ r.hi.allowsUpTo (k + 1) ∧ o' = o1) ∨
         (r.hi.allowsUpTo (k + 1) ∧ ∃ e, Runs G pol d p o1 (.err e o')))) ∧
    (∀ e o', Parses G pol d (.rep p r) o (.err e o') ↔
      e = .repeat_ ∧ o' = o ∧ ∃ k t o1, Applied G pol d p k ⟨o, 0⟩ o t o1 ∧
        (k = 0 ∨ r.hi.allowsUpTo k) ∧ ¬ (r.lo.allowsFrom k ∧ r.hi.allowsUpTo k) ∧
        (¬ r.hi.allowsUpTo (k + 1) ∨ Fails G pol d p o1)) ∧
    (Parses G pol d (.rep p r) o .panic ↔
      ∃ k t o1, Applied G pol d p k ⟨o, 0⟩ o t o1 ∧ r.hi.allowsUpTo (k + 1) ∧
        (Runs G pol d p o1 .panic ∨
         ∃ s o2, Runs G pol d p o1 (.ok s o2) ∧ ∀ u, ¬ Hull t s u)) := by
  have upto : ∀ k, (∀ j, j < k → r.hi.allowsUpTo (j + 1)) ↔ (k = 0 ∨ r.hi.allowsUpTo k) := by
    intro k
    cases k with
    | zero => simp
    | succ k =>
      constructor
      · intro h; exact .inr (h k (by omega))
      · rintro (h | h) j hj
        · omega
        · exact Bound.allowsUpTo_mono (by omega) h
  have mf : ∀ k, r.more k = false ↔ ¬ r.hi.allowsUpTo (k + 1) := by
    intro k; rw [← more_iff]; simp
  have cf : ∀ k, r.contains k = false ↔ ¬ (r.lo.allowsFrom k ∧ r.hi.allowsUpTo k) := by
    intro k; rw [← contains_iff]; simp
  refine ⟨fun s o' => ?_, fun e o' => ?_, ?_⟩ <;>
    simp only [parses_iff, parseL_rep, repL_iff, finish_ok, finish_err', finish_panic, upto,
      Nat.zero_add, mf, more_iff, contains_iff, cf, and_false, false_or, false_and, or_false,
      reduceCtorEq, exists_false, true_and]
  · constructor
    · rintro ⟨k, t, o1, ha, _, ⟨hm, ⟨h1, h2⟩, rfl, rfl⟩ | ⟨hm, e, o2, he, ⟨h1, h2⟩, rfl, rfl⟩⟩
      · exact ⟨k, _, ha, h1, h2, .inl ⟨hm, rfl⟩⟩
      · exact ⟨k, _, ha, h1, h2, .inr ⟨hm, e, he⟩⟩
    · rintro ⟨k, o1, ha, h1, h2, ⟨hm, rfl⟩ | ⟨hm, e, he⟩⟩
      · exact ⟨k, _, _, ha, .inr h2, .inl ⟨hm, ⟨h1, h2⟩, rfl, rfl⟩⟩
      · exact ⟨k, _, _, ha, .inr h2, .inr ⟨hm, e, _, he, ⟨h1, h2⟩, rfl, rfl⟩⟩
  · constructor
    · rintro ⟨k, t, o1, ha, hk, ⟨hm, h1, rfl, rfl⟩ | ⟨hm, e', o2, he, h1, rfl, rfl⟩⟩
      · exact ⟨rfl, rfl, k, t, o1, ha, hk, h1, .inl hm⟩
      · exact ⟨rfl, rfl, k, t, o1, ha, hk, h1, .inr ⟨_, _, he⟩⟩
    · rintro ⟨rfl, rfl, k, t, o1, ha, hk, h1, hm | ⟨e', o2, he⟩⟩
      · exact ⟨k, t, o1, ha, hk, .inl ⟨hm, h1, rfl, rfl⟩⟩
      · by_cases hm : r.hi.allowsUpTo (k + 1)
        · exact ⟨k, t, o1, ha, hk, .inr ⟨hm, _, _, he, h1, rfl, rfl⟩⟩
        · exact ⟨k, t, o1, ha, hk, .inl ⟨hm, h1, rfl, rfl⟩⟩
  · constructor
    · rintro ⟨k, t, o1, ha, hk, hm, h⟩; exact ⟨k, t, o1, ha, hm, h⟩
    · rintro ⟨k, t, o1, ha, hm, h⟩
      exact ⟨k, t, o1, ha, .inr (Bound.allowsUpTo_mono (by omega) hm), hm, h⟩

/-- On a plain context, for a tidy `p`, applications are adjacent. -/
theorem Applied.adjacent {p : Pat ι β} (hp : All G Tidy p) {k : Nat} {t t' : Span} {o o' : Nat}
    (h : Applied G none d p k t o t' o') (ht : t.beg + t.len = o) :
    t'.beg = t.beg ∧ t'.beg + t'.len = o' := by
  induction h with
  | zero t o => exact ⟨rfl, ht⟩
  | succ hr hh _ ih =>
    obtain ⟨n, hn⟩ := hr
    have he := exact_inv G n d p _ hp _ hn
    simp only [ExactAt] at he
    obtain ⟨h1, h2, h3, h4⟩ := hh
    have := ih (by omega)
    exact ⟨this.1.trans h3, this.2⟩

/-- **C13 (plain context).** For a tidy `p` on a plain context the repetition
succeeds exactly when some number `k` of consecutive matches is in the range
and cannot be extended (`p` fails there, or the maximum is reached); the span
is everything from `o` to the end of the last match, where the offset is left. -/
theorem C13_repeat_plain (p : Pat ι β) (hp : All G Tidy p) (r : CRange) (o : Nat) (s : Span) (o' : Nat) :
    Runs G none d (.rep p r) o (.ok s o') ↔
      s.beg = o ∧ s.beg + s.len = o' ∧ ∃ k, Applied G none d p k ⟨o, 0⟩ o s o' ∧
        r.lo.allowsFrom k ∧ r.hi.allowsUpTo k ∧
        (¬ r.hi.allowsUpTo (k + 1) ∨ Fails G none d p o') := by
  show Parses G none d (.rep p r) o (.ok s o') ↔ _
  rw [(C13_repeat p r o).1]
  constructor
  · rintro ⟨k, o1, ha, h1, h2, h⟩
    have ho : o' = o1 := by
      rcases h with ⟨_, rfl⟩ | ⟨_, e, n, hn⟩
      · rfl
      · exact (exact_inv G n d p _ hp _ hn)
    subst ho
    obtain ⟨e1, e2⟩ := ha.adjacent hp (by simp)
    refine ⟨e1, e2, k, ha, h1, h2, ?_⟩
    rcases h with ⟨h, _⟩ | ⟨_, e, h⟩
    · exact .inl h
    · exact .inr ⟨_, _, h⟩
  · rintro ⟨_, _, k, ha, h1, h2, h⟩
    refine ⟨k, o', ha, h1, h2, ?_⟩
    by_cases hm : r.hi.allowsUpTo (k + 1)
    · rcases h with h | ⟨e, o2, n, hn⟩
      · exact absurd hm h
      · have : o2 = o' := exact_inv G n d p _ hp _ hn
        subst this
        exact .inr ⟨hm, e, n, hn⟩
    · exact .inl ⟨hm, rfl⟩

example : Runs (β := Nat) G0 none ['a', 'a', 'a'] (.rep (.lit ['a']) ⟨.incl 1, .excl 3⟩) 0
    (.ok ⟨0, 2⟩ 2) ∧
    All (G0 (ι := Char) (β := Nat)) Tidy (.lit ['a']) :=
  ⟨⟨6, by decide⟩, all_lit trivial⟩

/-! ## C14: `repeat2` -/

/-- **C14 (partial).** `p.repeat2::<M,N>()` attempts up to `N + 1` applications;
it succeeds iff the number `k` of consecutive applications available (cut at
`N + 1`) is within `M..=N`.  Hence as long as at most `N` consecutive
applications are available the behaviour is the documented one.  Missing: that
it *stops* after `N` — false of the code, see `C14_repeat2_counterexample`. -/
theorem C14_repeat2_partial (p : Pat ι β) (m n : Nat) (o : Nat) :
    (∀ s o', Parses G pol d (.rep2 p m n) o (.ok s o') ↔
      ∃ k o1, Applied G pol d p k ⟨o, 0⟩ o s o1 ∧ m ≤ k ∧ k ≤ n ∧
        ∃ e, Runs G pol d p o1 (.err e o')) ∧
    (∀ e o', Parses G pol d (.rep2 p m n) o (.err e o') ↔
      e = .repeat2 ∧ o' = o ∧ ∃ k t o1, Applied G pol d p k ⟨o, 0⟩ o t o1 ∧
        ((k < m ∧ k ≤ n ∧ Fails G pol d p o1) ∨ k = n + 1)) := by
  have upto : ∀ k, (∀ j, j < k → j ≤ n) ↔ k ≤ n + 1 := by
    intro k
    constructor
    · intro h
      cases k with
      | zero => omega
      | succ k => have := h k (by omega); omega
    · intro h j hj; omega
  refine ⟨fun s o' => ?_, fun e o' => ?_⟩ <;>
    simp only [parses_iff, parseL_rep2, repL_iff, finish_ok, finish_err', upto,
      Nat.zero_add, and_false, false_or, false_and, or_false,
      reduceCtorEq, decide_eq_true_eq, decide_eq_false_iff_not, Bool.and_eq_true,
      Bool.and_eq_false_iff]
  · constructor
    · rintro ⟨k, t, o1, ha, _, ⟨hm, ⟨h1, h2⟩, rfl, rfl⟩ | ⟨hm, e, o2, he, ⟨h1, h2⟩, rfl, rfl⟩⟩
      · omega
      · exact ⟨k, _, ha, h1, h2, e, he⟩
    · rintro ⟨k, o1, ha, h1, h2, e, he⟩
      exact ⟨k, _, _, ha, by omega, .inr ⟨h2, e, _, he, ⟨h1, h2⟩, rfl, rfl⟩⟩
  · constructor
    · rintro ⟨k, t, o1, ha, hk, ⟨hm, h1, rfl, rfl⟩ | ⟨hm, e', o2, he, h1, rfl, rfl⟩⟩
      · exact ⟨rfl, rfl, k, t, o1, ha, .inr (by omega)⟩
      · exact ⟨rfl, rfl, k, t, o1, ha, .inl ⟨by omega, hm, _, _, he⟩⟩
    · rintro ⟨rfl, rfl, k, t, o1, ha, ⟨h1, h2, e', o2, he⟩ | rfl⟩
      · exact ⟨k, t, o1, ha, by omega, .inr ⟨h2, _, _, he, by omega, rfl, rfl⟩⟩
      · exact ⟨n + 1, t, o1, ha, by omega, .inl ⟨by omega, by omega, rfl, rfl⟩⟩

example : Parses (β := Nat) G0 none ['a', 'a'] (.rep2 (.lit ['a']) 1 2) 0 (.ok ⟨0, 2⟩ 2) :=
  ⟨6, by decide⟩

/-- **C14 (counterexample).** `"a".repeat2::<1,2>()` on `"aaa"` should match two
of the three; it fails. -/
theorem C14_repeat2_counterexample :
    Applied (β := Nat) G0 none ['a', 'a', 'a'] (.lit ['a']) 2 ⟨0, 0⟩ 0 ⟨0, 2⟩ 2 ∧
    Parses (β := Nat) G0 none ['a', 'a', 'a'] (.rep2 (.lit ['a']) 1 2) 0 (.err .repeat2 0) := by
  refine ⟨.succ (s := ⟨0, 1⟩) (t1 := ⟨0, 1⟩) (o1 := 1) ⟨2, by decide⟩ (by decide)
    (.succ (s := ⟨1, 1⟩) ⟨2, by decide⟩ (by decide) (.zero _ _)), 8, by decide⟩

/-! ## C15: `collect` (matching mode) -/

/-- **C15 (matching mode).** `p.collect().at_least(min)` applies `p` until it
fails; success iff at least `min` applications succeeded, otherwise
`Error::Collect` with the offset restored. -/
theorem C15_collect (p : Pat ι β) (min : Nat) (o : Nat) :
    (∀ s o', Parses G pol d (.collect p min) o (.ok s o') ↔
      ∃ k o1, Applied G pol d p k ⟨o, 0⟩ o s o1 ∧ min ≤ k ∧ ∃ e, Runs G pol d p o1 (.err e o')) ∧
    (∀ e o', Parses G pol d (.collect p min) o (.err e o') ↔
      e = .collect ∧ o' = o ∧ ∃ k t o1, Applied G pol d p k ⟨o, 0⟩ o t o1 ∧
        k < min ∧ Fails G pol d p o1) ∧
    (Parses G pol d (.collect p min) o .panic ↔
      ∃ k t o1, Applied G pol d p k ⟨o, 0⟩ o t o1 ∧
        (Runs G pol d p o1 .panic ∨
         ∃ s o2, Runs G pol d p o1 (.ok s o2) ∧ ∀ u, ¬ Hull t s u)) := by
  refine ⟨fun s o' => ?_, fun e o' => ?_, ?_⟩ <;>
    simp only [parses_iff, parseL_collect, repL_iff, finish_ok, finish_err', finish_panic, implies_true,
      Nat.zero_add, and_false, false_or, false_and, or_false, ge_iff_le, exists_false,
      reduceCtorEq, decide_eq_true_eq, decide_eq_false_iff_not, true_and, Nat.not_le]
  · constructor
    · rintro ⟨k, t, o1, ha, e, o2, he, h1, rfl, rfl⟩; exact ⟨k, _, ha, h1, e, he⟩
    · rintro ⟨k, o1, ha, h1, e, he⟩; exact ⟨k, _, _, ha, e, _, he, h1, rfl, rfl⟩
  · constructor
    · rintro ⟨k, t, o1, ha, e', o2, he, h1, rfl, rfl⟩
      exact ⟨rfl, rfl, k, t, o1, ha, h1, _, _, he⟩
    · rintro ⟨rfl, rfl, k, t, o1, ha, h1, _, _, he⟩
      exact ⟨k, t, o1, ha, _, _, he, h1, rfl, rfl⟩

example : Parses (β := Nat) G0 none ['a', 'a', 'b'] (.collect (.lit ['a']) 2) 0 (.ok ⟨0, 2⟩ 2) :=
  ⟨6, by decide⟩

/-! ## C16: `sep` (matching mode) -/

/-- **C16 (matching mode).** `p.sep(s).skip(skip).at_least(min)`.  With
`skip = true` the final element needs no separator and counts; with
`skip = false` it does not count and is not covered by the span (its input is
consumed all the same: `o'` is the offset after it). -/
theorem C16_sep (p s : Pat ι β) (skip : Bool) (min : Nat) (o : Nat) :
    (∀ sp o', Parses G pol d (.sep p s skip min) o (.ok sp o') ↔
      ∃ k t x, ListEnd G pol d p s o k t x o' ∧
        ((x = none ∧ min ≤ k ∧ sp = t) ∨
         (∃ y, x = some y ∧ skip = true ∧ min ≤ k + 1 ∧ Hull t y sp) ∨
         (x ≠ none ∧ skip = false ∧ min ≤ k ∧ sp = t))) ∧
    (∀ e o', Parses G pol d (.sep p s skip min) o (.err e o') ↔
      e = .separate ∧ o' = o ∧ ∃ k t x o1, ListEnd G pol d p s o k t x o1 ∧
        ((x = none ∧ k < min) ∨
         (∃ y, x = some y ∧ skip = true ∧ k + 1 < min ∧ ∃ u, Hull t y u) ∨
         (x ≠ none ∧ skip = false ∧ k < min))) := by
  refine ⟨fun s o' => ?_, fun e o' => ?_⟩ <;>
    simp only [parses_iff, parseL_sep, sepL_iff, finish_ok, finish_err', implies_true,
      Nat.zero_add, and_false, false_or, false_and, or_false, ge_iff_le, exists_false,
      reduceCtorEq, decide_eq_true_eq, decide_eq_false_iff_not, true_and, Nat.not_le]
  · constructor
    · rintro ⟨k, t, o1, ha, ⟨e, o2, he, h1, rfl, rfl⟩ | ⟨y, o2, e, o3, hp, hs,
        ⟨hk, u, hu, h1, rfl, rfl⟩ | ⟨hk, h1, rfl, rfl⟩⟩⟩
      · exact ⟨k, _, none, ⟨o1, ha, e, he⟩, .inl ⟨rfl, h1, rfl⟩⟩
      · exact ⟨k, _, some y, ⟨o1, ha, o2, e, hp, hs⟩, .inr (.inl ⟨y, rfl, hk, h1, hu⟩)⟩
      · exact ⟨k, _, some y, ⟨o1, ha, o2, e, hp, hs⟩, .inr (.inr ⟨by simp, hk, h1, rfl⟩)⟩
    · rintro ⟨k, t, x, ⟨o1, ha, h⟩, ⟨rfl, h1, rfl⟩ | ⟨y, rfl, hk, h1, hu⟩ | ⟨hx, hk, h1, rfl⟩⟩
      · obtain ⟨e, he⟩ := h
        exact ⟨k, _, o1, ha, .inl ⟨e, _, he, h1, rfl, rfl⟩⟩
      · obtain ⟨o2, e, hp, hs⟩ := h
        exact ⟨k, _, o1, ha, .inr ⟨y, o2, e, _, hp, hs, .inl ⟨hk, _, hu, h1, rfl, rfl⟩⟩⟩
      · cases x with
        | none => exact absurd rfl hx
        | some y =>
          obtain ⟨o2, e, hp, hs⟩ := h
          exact ⟨k, _, o1, ha, .inr ⟨y, o2, e, _, hp, hs, .inr ⟨hk, h1, rfl, rfl⟩⟩⟩
  · constructor
    · rintro ⟨k, t, o1, ha, ⟨e, o2, he, h1, rfl, rfl⟩ | ⟨y, o2, e, o3, hp, hs,
        ⟨hk, u, hu, h1, rfl, rfl⟩ | ⟨hk, h1, rfl, rfl⟩⟩⟩
      · exact ⟨rfl, rfl, k, _, none, _, ⟨o1, ha, e, he⟩, .inl ⟨rfl, h1⟩⟩
      · exact ⟨rfl, rfl, k, _, some y, _, ⟨o1, ha, o2, e, hp, hs⟩, .inr (.inl ⟨y, rfl, hk, h1, _, hu⟩)⟩
      · exact ⟨rfl, rfl, k, _, some y, _, ⟨o1, ha, o2, e, hp, hs⟩, .inr (.inr ⟨by simp, hk, h1⟩)⟩
    · rintro ⟨rfl, rfl, k, t, x, oe, ⟨o1, ha, h⟩, ⟨rfl, h1⟩ | ⟨y, rfl, hk, h1, u, hu⟩ | ⟨hx, hk, h1⟩⟩
      · obtain ⟨e, he⟩ := h
        exact ⟨k, _, o1, ha, .inl ⟨e, _, he, h1, rfl, rfl⟩⟩
      · obtain ⟨o2, e, hp, hs⟩ := h
        exact ⟨k, _, o1, ha, .inr ⟨y, o2, e, _, hp, hs, .inl ⟨hk, u, hu, h1, rfl, rfl⟩⟩⟩
      · cases x with
        | none => exact absurd rfl hx
        | some y =>
          obtain ⟨o2, e, hp, hs⟩ := h
          exact ⟨k, _, o1, ha, .inr ⟨y, o2, e, _, hp, hs, .inr ⟨hk, h1, rfl, rfl⟩⟩⟩

example : Parses (β := Nat) G0 none ['a', ',', 'a', ','] (.sep (.lit ['a']) (.lit [',']) true 1) 0
    (.ok ⟨0, 4⟩ 4) := ⟨8, by decide⟩
example : Parses (β := Nat) G0 none ['a', ',', 'a'] (.sep (.lit ['a']) (.lit [',']) true 2) 0
    (.ok ⟨0, 3⟩ 3) := ⟨8, by decide⟩

/-- The separator loop does not depend on the two loop conditions as long as
they agree on the counts reached. -/
theorem sepCollect_match_eq_sep (p s : Pat ι β) (skip : Bool) (min o : Nat) :
    (∀ sp o', Parses G pol d (.sepCollect p s skip min) o (.ok sp o') ↔
      Parses G pol d (.sep p s skip min) o (.ok sp o')) ∧
    (∀ o', Parses G pol d (.sepCollect p s skip min) o (.err .sepCollect o') ↔
      Parses G pol d (.sep p s skip min) o (.err .separate o')) ∧
    (Parses G pol d (.sepCollect p s skip min) o .panic ↔
      Parses G pol d (.sep p s skip min) o .panic) := by
  refine ⟨fun s o' => ?_, fun o' => ?_, ?_⟩ <;>
    simp only [parses_iff, parseL_sep, parseL_sepCollect, sepL_iff, finish_ok, finish_err',
      finish_panic, true_and, and_true, reduceCtorEq, false_and, and_false, or_false, false_or]

/-! ## C17: `sep2` (matching mode) -/

/-- **C17 (partial, matching mode).** `sep2::<M,N>` accepts lists of up to
`N + 1` elements; whenever `sep` (with `min = M`) finds at most `N` element-
separator pairs, `sep2` gives the same result as `sep`.  Missing: "at most `N`
elements" — false of the code, see `C17_sep2_counterexample`. -/
theorem C17_sep2_partial (p s : Pat ι β) (skip : Bool) (m n : Nat) (o k : Nat) (t : Span)
    (x : Option Span) (oe : Nat) (hl : ListEnd G pol d p s o k t x oe) (hk : k ≤ n) :
    (∀ sp o', Parses G pol d (.sep2 p s skip m n) o (.ok sp o') ↔
      Parses G pol d (.sep p s skip m) o (.ok sp o')) ∧
    (∀ o', Parses G pol d (.sep2 p s skip m n) o (.err .separate2 o') ↔
      Parses G pol d (.sep p s skip m) o (.err .separate o')) := by
  have det : ∀ {k1 t0 o0 t1 o1 k2 t2 o2}, AppliedSep G pol d p s k1 t0 o0 t1 o1 →
      AppliedSep G pol d p s k2 t0 o0 t2 o2 →
      (¬ ∃ sp oo ss o3, Runs G pol d p o1 (.ok sp oo) ∧ Runs G pol d s oo (.ok ss o3)) → k2 ≤ k1 := by
    intro k1 t0 o0 t1 o1 k2 t2 o2 h1 h2 hend
    induction h1 generalizing k2 t2 o2 with
    | zero t o =>
      cases h2 with
      | zero => exact Nat.le_refl _
      | succ hp hs _ _ _ => exact absurd ⟨_, _, _, _, hp, hs⟩ hend
    | succ hp hs hh hh' _ ih =>
      cases h2 with
      | zero => omega
      | succ hp' hs' hh2 hh2' ha' =>
        cases hp.unique hp'
        cases hs.unique hs'
        cases hh.unique hh2
        cases hh'.unique hh2'
        have := ih ha' hend
        omega
  obtain ⟨o1, ha, hx⟩ := hl
  have hend : ¬ ∃ sp oo ss o3, Runs G pol d p o1 (.ok sp oo) ∧ Runs G pol d s oo (.ok ss o3) := by
    rintro ⟨sp, oo, ss, o3, hp, hs⟩
    cases x with
    | none => obtain ⟨e, he⟩ := hx; cases he.unique hp
    | some y =>
      obtain ⟨o2, e, hp', hs'⟩ := hx
      cases hp.unique hp'
      cases hs.unique hs'
  have le : ∀ {k' t' o'}, AppliedSep G pol d p s k' ⟨o, 0⟩ o t' o' → k' ≤ n := by
    intro k' t' o' h; have := det ha h hend; omega
  refine ⟨fun sp o' => ?_, fun o' => ?_⟩ <;>
    simp only [parses_iff, parseL_sep, parseL_sep2, sepL_iff, finish_ok, finish_err',
      implies_true, Nat.zero_add, and_false, false_or, false_and, or_false, exists_false,
      reduceCtorEq, true_and, decide_eq_true_eq, decide_eq_false_iff_not]
  all_goals
    constructor
    · rintro ⟨k', t', o1', ha', _, ⟨hm, _⟩ | ⟨_, h⟩⟩
      · exact absurd (le ha') hm
      · exact ⟨k', t', o1', ha', h⟩
    · rintro ⟨k', t', o1', ha', h⟩
      have := le ha'
      exact ⟨k', t', o1', ha', fun j hj => by omega, .inr ⟨this, h⟩⟩

example : ListEnd (β := Nat) G0 none ['a', ',', 'a'] (.lit ['a']) (.lit [',']) 0 1 ⟨0, 2⟩
    (some ⟨2, 1⟩) 3 :=
  ⟨2, .succ (sp := ⟨0, 1⟩) (t1 := ⟨0, 1⟩) (ss := ⟨1, 1⟩) (t2 := ⟨0, 2⟩) (o1 := 1) ⟨2, by decide⟩ ⟨2, by decide⟩
    (by decide) (by decide) (.zero _ _), 3, .literal, ⟨2, by decide⟩, 2, by decide⟩

/-- **C17 (counterexample, matching mode).** `"a".sep2::<_,1,2>(",")` accepts
three elements of `"a,a,a"`. -/
theorem C17_sep2_counterexample :
    Parses (β := Nat) G0 none ['a', ',', 'a', ',', 'a'] (.sep2 (.lit ['a']) (.lit [',']) true 1 2) 0
      (.ok ⟨0, 5⟩ 5) := ⟨9, by decide⟩

end Neure
