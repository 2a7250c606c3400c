import Verif.PropsLoop
import Verif.PropsCtorLoop
/-!
# C17, C18: what `sep2` and `sep_collect` do in every case

`C17_sep2_partial` and `C18_sepCollect_partial` compare with `sep` where they agree with it.
Here is the behaviour in all cases, including those where the code departs from its
description.
-/

namespace Neure

set_option linter.unusedSectionVars false
set_option linter.unusedSimpArgs false

open Demo

variable {ι β σ : Type} [Item ι] {G : Rules ι β} {H : Handler ι β σ} {pol : Option (Pat ι β)}
  {d : List ι}

/-- **C17 (matching mode, all inputs).** `p.sep2::<M,N>(s)` stops after `N + 1` elements
followed by separators; before that it ends as `sep` does. -/
theorem C17_sep2_exact_partial (p s : Pat ι β) (skip : Bool) (m n : Nat) (o : Nat) :
    (∀ sp o', Parses G pol d (.sep2 p s skip m n) o (.ok sp o') ↔
      (m ≤ n + 1 ∧ AppliedSep G pol d p s (n + 1) ⟨o, 0⟩ o sp o') ∨
      ∃ k t x, k ≤ n ∧ ListEnd G pol d p s o k t x o' ∧
        ((x = none ∧ m ≤ k ∧ sp = t) ∨
         (∃ y, x = some y ∧ skip = true ∧ m ≤ k + 1 ∧ Hull t y sp) ∨
         (x ≠ none ∧ skip = false ∧ m ≤ k ∧ sp = t))) ∧
    (∀ e o', Parses G pol d (.sep2 p s skip m n) o (.err e o') ↔
      e = .separate2 ∧ o' = o ∧
      ((n + 1 < m ∧ ∃ t o1, AppliedSep G pol d p s (n + 1) ⟨o, 0⟩ o t o1) ∨
       ∃ k t x o1, k ≤ n ∧ ListEnd G pol d p s o k t x o1 ∧
        ((x = none ∧ k < m) ∨
         (∃ y, x = some y ∧ skip = true ∧ k + 1 < m ∧ ∃ u, Hull t y u) ∨
         (x ≠ none ∧ skip = false ∧ k < m)))) := by
  refine ⟨fun sp o' => ?_, fun e o' => ?_⟩ <;>
    simp only [parses_iff, parseL_sep2, sepL_iff, finish_ok, finish_err', implies_true,
      Nat.zero_add, and_false, false_or, false_and, or_false, ge_iff_le, exists_false,
      reduceCtorEq, decide_eq_true_eq, decide_eq_false_iff_not, true_and, Nat.not_le]
  · constructor
    · rintro ⟨k, t, o1, ha, hj, ⟨hm, h1, rfl, rfl⟩ | ⟨hm, ⟨e, o2, he, h1, rfl, rfl⟩ |
        ⟨y, o2, e, o3, hp, hs, ⟨hk, u, hu, h1, rfl, rfl⟩ | ⟨hk, h1, rfl, rfl⟩⟩⟩⟩
      · have hk : k = n + 1 := by
          rcases Nat.lt_or_ge (n + 1) k with h | h
          · have := hj (n + 1) h; omega
          · omega
        subst hk
        exact .inl ⟨h1, ha⟩
      · exact .inr ⟨k, _, none, hm, ⟨o1, ha, e, he⟩, .inl ⟨rfl, h1, rfl⟩⟩
      · exact .inr ⟨k, _, some y, hm, ⟨o1, ha, o2, e, hp, hs⟩, .inr (.inl ⟨y, rfl, hk, h1, hu⟩)⟩
      · exact .inr ⟨k, _, some y, hm, ⟨o1, ha, o2, e, hp, hs⟩, .inr (.inr ⟨by simp, hk, h1, rfl⟩)⟩
    · rintro (⟨h1, ha⟩ | ⟨k, t, x, hn, ⟨o1, ha, h⟩, ⟨rfl, h1, rfl⟩ | ⟨y, rfl, hk, h1, hu⟩ | ⟨hx, hk, h1, rfl⟩⟩)
      · exact ⟨n + 1, _, _, ha, fun j hj => by omega, .inl ⟨by omega, h1, rfl, rfl⟩⟩
      · obtain ⟨e, he⟩ := h
        exact ⟨k, _, o1, ha, fun j hj => by omega, .inr ⟨hn, .inl ⟨e, _, he, h1, rfl, rfl⟩⟩⟩
      · obtain ⟨o2, e, hp, hs⟩ := h
        exact ⟨k, _, o1, ha, fun j hj => by omega, .inr ⟨hn, .inr ⟨y, o2, e, _, hp, hs,
          .inl ⟨hk, _, hu, h1, rfl, rfl⟩⟩⟩⟩
      · cases x with
        | none => exact absurd rfl hx
        | some y =>
          obtain ⟨o2, e, hp, hs⟩ := h
          exact ⟨k, _, o1, ha, fun j hj => by omega, .inr ⟨hn, .inr ⟨y, o2, e, _, hp, hs,
            .inr ⟨hk, h1, rfl, rfl⟩⟩⟩⟩
  · constructor
    · rintro ⟨k, t, o1, ha, hj, ⟨hm, h1, rfl, rfl⟩ | ⟨hm, ⟨e, o2, he, h1, rfl, rfl⟩ |
        ⟨y, o2, e, o3, hp, hs, ⟨hk, u, hu, h1, rfl, rfl⟩ | ⟨hk, h1, rfl, rfl⟩⟩⟩⟩
      · have hk : k = n + 1 := by
          rcases Nat.lt_or_ge (n + 1) k with h | h
          · have := hj (n + 1) h; omega
          · omega
        subst hk
        exact ⟨rfl, rfl, .inl ⟨h1, _, _, ha⟩⟩
      · exact ⟨rfl, rfl, .inr ⟨k, _, none, _, hm, ⟨o1, ha, e, he⟩, .inl ⟨rfl, h1⟩⟩⟩
      · exact ⟨rfl, rfl, .inr ⟨k, _, some y, _, hm, ⟨o1, ha, o2, e, hp, hs⟩,
          .inr (.inl ⟨y, rfl, hk, h1, _, hu⟩)⟩⟩
      · exact ⟨rfl, rfl, .inr ⟨k, _, some y, _, hm, ⟨o1, ha, o2, e, hp, hs⟩,
          .inr (.inr ⟨by simp, hk, h1⟩)⟩⟩
    · rintro ⟨rfl, rfl, ⟨h1, t, o1, ha⟩ | ⟨k, t, x, oe, hn, ⟨o1, ha, h⟩,
        ⟨rfl, h1⟩ | ⟨y, rfl, hk, h1, u, hu⟩ | ⟨hx, hk, h1⟩⟩⟩
      · exact ⟨n + 1, _, _, ha, fun j hj => by omega, .inl ⟨by omega, h1, rfl, rfl⟩⟩
      · obtain ⟨e, he⟩ := h
        exact ⟨k, _, o1, ha, fun j hj => by omega, .inr ⟨hn, .inl ⟨e, _, he, h1, rfl, rfl⟩⟩⟩
      · obtain ⟨o2, e, hp, hs⟩ := h
        exact ⟨k, _, o1, ha, fun j hj => by omega, .inr ⟨hn, .inr ⟨y, o2, e, _, hp, hs,
          .inl ⟨hk, _, hu, h1, rfl, rfl⟩⟩⟩⟩
      · cases x with
        | none => exact absurd rfl hx
        | some y =>
          obtain ⟨o2, e, hp, hs⟩ := h
          exact ⟨k, _, o1, ha, fun j hj => by omega, .inr ⟨hn, .inr ⟨y, o2, e, _, hp, hs,
            .inr ⟨hk, h1, rfl, rfl⟩⟩⟩⟩

/-- Three elements with their separators, `N = 2`: matching stops after them although
a fourth follows. -/
example : Parses (β := Nat) G0 none ['a', ',', 'a', ',', 'a', ',', 'a']
    (.sep2 (.lit ['a']) (.lit [',']) true 1 2) 0 (.ok ⟨0, 6⟩ 6) :=
  ((C17_sep2_exact_partial _ _ true 1 2 0).1 _ _).2 (.inl ⟨by decide,
    .succ (sp := ⟨0, 1⟩) (t1 := ⟨0, 1⟩) (ss := ⟨1, 1⟩) (t2 := ⟨0, 2⟩) (o1 := 1) (o2 := 2) ⟨2, by decide⟩
      ⟨2, by decide⟩ (by decide) (by decide)
    (.succ (sp := ⟨2, 1⟩) (t1 := ⟨0, 3⟩) (ss := ⟨3, 1⟩) (t2 := ⟨0, 4⟩) (o1 := 3) (o2 := 4) ⟨2, by decide⟩
      ⟨2, by decide⟩ (by decide) (by decide)
    (.succ (sp := ⟨4, 1⟩) (t1 := ⟨0, 5⟩) (ss := ⟨5, 1⟩) (t2 := ⟨0, 6⟩) (o1 := 5) ⟨2, by decide⟩ ⟨2, by decide⟩
      (by decide) (by decide) (.zero _ _)))⟩)

/-- **C17 (constructing, all inputs).** Up to `N` elements are returned; the code panics
exactly when there is one more element to keep (or a part panics). -/
theorem C17_sep2_construct_exact_partial (p s : Pat ι β) (skip : Bool) (m n : Nat) (st : σ) (o : Nat) :
    (∀ v st' o', Constructs G H pol d (.sep2 p s skip m n) st o (.ok v st' o') ↔
      ∃ vs x, BuiltList G H pol d p s st o vs x st' o' ∧ m ≤ (kept skip vs x).length ∧
        (kept skip vs x).length ≤ n ∧
        v = Val.list ((kept skip vs x).map .some ++
          List.replicate (n - (kept skip vs x).length) .none)) ∧
    (∀ e st' o', Constructs G H pol d (.sep2 p s skip m n) st o (.err e st' o') ↔
      e = .separate2 ∧ o' = o ∧ ∃ vs x o1, BuiltList G H pol d p s st o vs x st' o1 ∧
        (kept skip vs x).length < m ∧ (kept skip vs x).length ≤ n) ∧
    (Constructs G H pol d (.sep2 p s skip m n) st o .panic ↔
      ∃ vs st1 o1, BuiltSep G H pol d p s vs st o st1 o1 ∧ vs.length ≤ n ∧
        (Constructs G H pol d p st1 o1 .panic ∨
         ∃ v st2 o2, Constructs G H pol d p st1 o1 (.ok v st2 o2) ∧
          (Runs G pol d s o2 .panic ∨
           (vs.length = n ∧ ((∃ ss o3, Runs G pol d s o2 (.ok ss o3)) ∨
             (skip = true ∧ ∃ e o3, Runs G pol d s o2 (.err e o3))))))) := by
  refine ⟨fun v st' o' => ?_, fun e st' o' => ?_, ?_⟩ <;>
    rw [constructs_iff, conL_sep2, conSepL_iff] <;>
    simp only [conFinish_ok, conFinish_err, conFinish_panic, implies_true, List.nil_append, and_self,
      Nat.zero_add, and_false, false_or, false_and, or_false, ge_iff_le, exists_false, padded,
      reduceCtorEq, decide_eq_true_eq, decide_eq_false_iff_not, true_and, and_true, Nat.not_le, Nat.not_lt]
  · constructor
    · rintro ⟨vs, st1, o1, ha, hj, ⟨hm, -⟩ | ⟨hm, ⟨e, st2, o2, he, h1, rfl, rfl, rfl⟩ |
        ⟨y, st2, o2, e, o3, hp, hs, ⟨hk, hr, h1, rfl, rfl, rfl⟩ | ⟨hk, h1, rfl, rfl, rfl⟩⟩⟩⟩
      · have := hj n (by omega); omega
      · exact ⟨vs, none, ⟨st1, o1, ha, e, he⟩, h1, hm, rfl⟩
      · exact ⟨vs, some y, ⟨st1, o1, ha, o2, e, hp, hs⟩, by simpa [kept, hk] using h1,
          by simp [kept, hk]; omega, by simp [kept, hk]⟩
      · exact ⟨vs, some y, ⟨st1, o1, ha, o2, e, hp, hs⟩, by simpa [kept, hk] using h1,
          by simp [kept, hk]; omega, by simp [kept, hk]⟩
    · rintro ⟨vs, x, hl, h1, h2, rfl⟩
      have := (C17_sep2_construct_partial p s skip m n st st' o o' vs x hl h2 _).2 rfl
      rw [if_pos h1, constructs_iff, conL_sep2, conSepL_iff] at this
      simpa only [conFinish_ok, conFinish_err, conFinish_panic, implies_true, List.nil_append, and_self,
        Nat.zero_add, and_false, false_or, false_and, or_false, ge_iff_le, exists_false, padded,
        reduceCtorEq, decide_eq_true_eq, decide_eq_false_iff_not, true_and, and_true, Nat.not_le, Nat.not_lt]
        using this
  · constructor
    · rintro ⟨vs, st1, o1, ha, hj, ⟨hm, -⟩ | ⟨hm, ⟨e, st2, o2, he, h1, rfl, rfl, rfl⟩ |
        ⟨y, st2, o2, e, o3, hp, hs, ⟨hk, hr, h1, rfl, rfl, rfl⟩ | ⟨hk, h1, rfl, rfl, rfl⟩⟩⟩⟩
      · have := hj n (by omega); omega
      · exact ⟨rfl, rfl, vs, none, _, ⟨st1, o1, ha, e, he⟩, h1, hm⟩
      · exact ⟨rfl, rfl, vs, some y, _, ⟨st1, o1, ha, o2, e, hp, hs⟩, by simpa [kept, hk] using h1,
          by simp [kept, hk]; omega⟩
      · exact ⟨rfl, rfl, vs, some y, _, ⟨st1, o1, ha, o2, e, hp, hs⟩, by simpa [kept, hk] using h1,
          by simp [kept, hk]; omega⟩
    · rintro ⟨rfl, rfl, vs, x, o1, hl, h1, h2⟩
      have := (C17_sep2_construct_partial p s skip m n st st' o' o1 vs x hl h2 _).2 rfl
      rw [if_neg (by omega), constructs_iff, conL_sep2, conSepL_iff] at this
      simpa only [conFinish_ok, conFinish_err, conFinish_panic, implies_true, List.nil_append, and_self,
        Nat.zero_add, and_false, false_or, false_and, or_false, ge_iff_le, exists_false, padded,
        reduceCtorEq, decide_eq_true_eq, decide_eq_false_iff_not, true_and, and_true, Nat.not_le, Nat.not_lt]
        using this
  · constructor
    · rintro ⟨vs, st1, o1, ha, hj, hm, ⟨y, st2, o2, e, o3, hp, hs, hk, hr⟩ | hp | ⟨y, st2, o2, hp, hs | ⟨hr, hs⟩⟩⟩
      · exact ⟨vs, st1, o1, ha, hm, .inr ⟨y, st2, o2, hp, .inr ⟨by omega, .inr ⟨hk, e, o3, hs⟩⟩⟩⟩
      · exact ⟨vs, st1, o1, ha, hm, .inl hp⟩
      · exact ⟨vs, st1, o1, ha, hm, .inr ⟨y, st2, o2, hp, .inl hs⟩⟩
      · exact ⟨vs, st1, o1, ha, hm, .inr ⟨y, st2, o2, hp, .inr ⟨by omega, .inl hs⟩⟩⟩
    · rintro ⟨vs, st1, o1, ha, hm, hp | ⟨y, st2, o2, hp, hs | ⟨hr, hs | ⟨hk, e, o3, hs⟩⟩⟩⟩
      · exact ⟨vs, st1, o1, ha, fun j hj => ⟨by omega, by omega⟩, hm, .inr (.inl hp)⟩
      · exact ⟨vs, st1, o1, ha, fun j hj => ⟨by omega, by omega⟩, hm, .inr (.inr ⟨y, st2, o2, hp, .inl hs⟩)⟩
      · exact ⟨vs, st1, o1, ha, fun j hj => ⟨by omega, by omega⟩, hm,
          .inr (.inr ⟨y, st2, o2, hp, .inr ⟨by omega, hs⟩⟩)⟩
      · exact ⟨vs, st1, o1, ha, fun j hj => ⟨by omega, by omega⟩, hm,
          .inl ⟨y, st2, o2, e, o3, hp, hs, hk, by omega⟩⟩

/-- `skip(false)`: an element without separator after `N` others does not panic. -/
example : Constructs (σ := Nat) G0 lenH none ['a', ',', 'a']
    (.sep2 (.lit ['a']) (.lit [',']) false 1 1) 0 0 (.ok (Val.list [.some (.base 1)]) 2 3) :=
  ((C17_sep2_construct_exact_partial _ _ false 1 1 0 0).1 _ _ _).2 ⟨[.base 1], some (.base 1),
    ⟨1, 2, .cons (v := .base 1) (ss := ⟨1, 1⟩) (o1 := 1) ⟨2, by decide⟩ ⟨2, by decide⟩ (.nil _ _),
    3, .literal, ⟨2, by decide⟩, 2, by decide⟩, by decide, by decide, rfl⟩

/-- Where the closure of `sep_collect` stops: at the end of the list, or, with `skip` after
an element without separator, after trying an element and a separator once more. -/
def CollectStop (G : Rules ι β) (H : Handler ι β σ) (pol : Option (Pat ι β)) (d : List ι) (p s : Pat ι β)
    (skip : Bool) (x : Option (Val β)) (st : σ) (o : Nat) (st' : σ) (o' : Nat) : Prop :=
  if skip = true ∧ x ≠ none then
    (∃ e, Constructs G H pol d p st o (.err e st' o')) ∨
    ∃ v o1, Constructs G H pol d p st o (.ok v st' o1) ∧
      ((∃ ss, Runs G pol d s o1 (.ok ss o')) ∨ ∃ e, Runs G pol d s o1 (.err e o'))
  else st' = st ∧ o' = o

theorem ended_iff {p s : Pat ι β} {skip : Bool}
    {fin : Nat → List (Val β) → σ → Nat → Option (CRes σ (Val β))} {cnt : Nat} {vals : List (Val β)}
    {st : σ} {o : Nat} {r : CRes σ (Val β)} :
    conSepCL (conL G H pol d) (matL G pol d s) p skip fin true cnt vals st o = some r ↔
      (∃ st' o', ((∃ e, Constructs G H pol d p st o (.err e st' o')) ∨
        ∃ v o1, Constructs G H pol d p st o (.ok v st' o1) ∧
          ((∃ ss, Runs G pol d s o1 (.ok ss o')) ∨ ∃ e, Runs G pol d s o1 (.err e o'))) ∧
        fin cnt vals st' o' = some r) ∨
      (r = .panic ∧ (Constructs G H pol d p st o .panic ∨
        ∃ v st' o1, Constructs G H pol d p st o (.ok v st' o1) ∧ Runs G pol d s o1 .panic)) := by
  simp only [constructs_iff, runs_iff]
  rw [conSepCL_eq]
  simp only [if_true]
  generalize conL G H pol d p st o = x
  rcases x with _ | (⟨v, st1, o1⟩ | ⟨e, st1, o1⟩ | _)
  · simp [caseC]
  · simp only [caseC]
    generalize hy : matL G pol d s o1 = y
    rcases y with _ | (⟨ss, o2⟩ | ⟨e, o2⟩ | _)
    · simp only [caseM, reduceCtorEq, false_iff]
      rintro (⟨st', o', ⟨e, he⟩ | ⟨v', o1', hv, ⟨ss, h⟩ | ⟨e, h⟩⟩, _⟩ | ⟨_, h | ⟨v', st', o1', hv, h⟩⟩)
      all_goals first | (cases hv; rw [hy] at h; cases h) | cases he | cases h
    · simp only [caseM]
      constructor
      · intro h; exact .inl ⟨st1, o2, .inr ⟨v, o1, rfl, .inl ⟨ss, hy⟩⟩, h⟩
      · rintro (⟨st', o', ⟨e, he⟩ | ⟨v', o1', hv, ⟨ss, h⟩ | ⟨e, h⟩⟩, hf⟩ | ⟨_, h | ⟨v', st', o1', hv, h⟩⟩)
        · cases he
        · cases hv; rw [hy] at h; cases h; exact hf
        · cases hv; rw [hy] at h; cases h
        · cases h
        · cases hv; rw [hy] at h; cases h
    · simp only [caseM]
      constructor
      · intro h; exact .inl ⟨st1, o2, .inr ⟨v, o1, rfl, .inr ⟨e, hy⟩⟩, h⟩
      · rintro (⟨st', o', ⟨e, he⟩ | ⟨v', o1', hv, ⟨ss, h⟩ | ⟨e, h⟩⟩, hf⟩ | ⟨_, h | ⟨v', st', o1', hv, h⟩⟩)
        · cases he
        · cases hv; rw [hy] at h; cases h
        · cases hv; rw [hy] at h; cases h; exact hf
        · cases h
        · cases hv; rw [hy] at h; cases h
    · simp only [caseM]
      constructor
      · intro h; exact .inr ⟨(Option.some.inj h).symm, .inr ⟨v, st1, o1, rfl, hy⟩⟩
      · rintro (⟨st', o', ⟨e, he⟩ | ⟨v', o1', hv, ⟨ss, h⟩ | ⟨e, h⟩⟩, hf⟩ | ⟨rfl, _⟩)
        · cases he
        · cases hv; rw [hy] at h; cases h
        · cases hv; rw [hy] at h; cases h
        · rfl
  · simp only [caseC]
    constructor
    · intro h; exact .inl ⟨st1, o1, .inl ⟨e, rfl⟩, h⟩
    · rintro (⟨st', o', ⟨e, he⟩ | ⟨v', o1', hv, _⟩, hf⟩ | ⟨_, h | ⟨v', st', o1', hv, h⟩⟩)
      · cases he; exact hf
      · cases hv
      · cases h
      · cases hv
  · simp only [caseC]
    constructor
    · intro h; exact .inr ⟨(Option.some.inj h).symm, by simp⟩
    · rintro (⟨st', o', ⟨e, he⟩ | ⟨v', o1', hv, _⟩, hf⟩ | ⟨rfl, _⟩)
      · cases he
      · cases hv
      · rfl

/-- **C18 (constructing, all inputs).** `p.sep_collect(s)` returns the elements that
`p.sep(s)` returns (`kept` of the same list), if there are at least `min`, but the
handler's state and the position are those of `CollectStop`. -/
theorem C18_sepCollect_exact_partial (p s : Pat ι β) (skip : Bool) (min : Nat) (st : σ) (o : Nat) :
    (∀ v st' o', Constructs G H pol d (.sepCollect p s skip min) st o (.ok v st' o') ↔
      ∃ vs x st1 o1, BuiltList G H pol d p s st o vs x st1 o1 ∧ min ≤ (kept skip vs x).length ∧
        v = Val.list (kept skip vs x) ∧ CollectStop G H pol d p s skip x st1 o1 st' o') ∧
    (∀ e st' o', Constructs G H pol d (.sepCollect p s skip min) st o (.err e st' o') ↔
      e = .sepCollect ∧ o' = o ∧ ∃ vs x st1 o1 o2, BuiltList G H pol d p s st o vs x st1 o1 ∧
        (kept skip vs x).length < min ∧ CollectStop G H pol d p s skip x st1 o1 st' o2) := by
  refine ⟨fun v st' o' => ?_, fun e st' o' => ?_⟩ <;>
    rw [constructs_iff, conL_sepCollect, conSepCL_iff] <;>
    simp only [ended_iff, conFinish_ok, conFinish_err, implies_true, List.nil_append, and_self,
      Nat.zero_add, and_false, false_or, false_and, or_false, ge_iff_le, exists_false,
      reduceCtorEq, decide_eq_true_eq, decide_eq_false_iff_not, true_and, and_true, Nat.not_le]
  · constructor
    · rintro ⟨vs, st1, o1, ha, ⟨e, st2, o2, he, h1, rfl, rfl, rfl⟩ | ⟨y, st2, o2, e, o3, hp, hs,
        ⟨hk, st4, o4, hstop, h1, rfl, rfl, rfl⟩ | ⟨hk, h1, rfl, rfl, rfl⟩⟩⟩
      · exact ⟨vs, none, _, _, ⟨st1, o1, ha, e, he⟩, h1, rfl, by simp [CollectStop]⟩
      · exact ⟨vs, some y, _, _, ⟨st1, o1, ha, o2, e, hp, hs⟩, by simpa [kept, hk] using h1, by simp [kept, hk],
          by rw [CollectStop, if_pos ⟨hk, by simp⟩]; exact hstop⟩
      · exact ⟨vs, some y, _, _, ⟨st1, o1, ha, o2, e, hp, hs⟩, by simpa [kept, hk] using h1, by simp [kept, hk],
          by simp [CollectStop, hk]⟩
    · rintro ⟨vs, x, st2, o2, ⟨st1, o1, ha, h⟩, h1, rfl, hstop⟩
      cases x with
      | none =>
        obtain ⟨e, he⟩ := h
        simp only [CollectStop, ne_eq, not_true_eq_false, and_false, if_false] at hstop
        obtain ⟨rfl, rfl⟩ := hstop
        exact ⟨vs, st1, o1, ha, .inl ⟨e, _, _, he, h1, rfl, rfl, rfl⟩⟩
      | some y =>
        obtain ⟨o3, e, hp, hs⟩ := h
        cases skip with
        | true =>
          rw [CollectStop, if_pos ⟨rfl, by simp⟩] at hstop
          exact ⟨vs, st1, o1, ha, .inr ⟨y, _, o3, e, _, hp, hs, .inl ⟨rfl, _, _, hstop,
            by simpa [kept] using h1, rfl, rfl, rfl⟩⟩⟩
        | false =>
          simp only [CollectStop, Bool.false_eq_true, false_and, if_false] at hstop
          obtain ⟨rfl, rfl⟩ := hstop
          exact ⟨vs, st1, o1, ha, .inr ⟨y, _, o3, e, _, hp, hs, .inr ⟨rfl, by simpa [kept] using h1,
            rfl, rfl, rfl⟩⟩⟩
  · constructor
    · rintro ⟨vs, st1, o1, ha, ⟨e, st2, o2, he, h1, rfl, rfl, rfl⟩ | ⟨y, st2, o2, e, o3, hp, hs,
        ⟨hk, st4, o4, hstop, h1, rfl, rfl, rfl⟩ | ⟨hk, h1, rfl, rfl, rfl⟩⟩⟩
      · exact ⟨rfl, rfl, vs, none, _, _, _, ⟨st1, o1, ha, e, he⟩, h1, by simp [CollectStop]; rfl⟩
      · exact ⟨rfl, rfl, vs, some y, _, _, _, ⟨st1, o1, ha, o2, e, hp, hs⟩, by simpa [kept, hk] using h1,
          by rw [CollectStop, if_pos ⟨hk, by simp⟩]; exact hstop⟩
      · exact ⟨rfl, rfl, vs, some y, _, _, _, ⟨st1, o1, ha, o2, e, hp, hs⟩, by simpa [kept, hk] using h1,
          by simp [CollectStop, hk]; rfl⟩
    · rintro ⟨rfl, rfl, vs, x, st2, o2, oe, ⟨st1, o1, ha, h⟩, h1, hstop⟩
      cases x with
      | none =>
        obtain ⟨e, he⟩ := h
        simp only [CollectStop, ne_eq, not_true_eq_false, and_false, if_false] at hstop
        obtain ⟨rfl, rfl⟩ := hstop
        exact ⟨vs, st1, o1, ha, .inl ⟨e, _, _, he, h1, rfl, rfl, rfl⟩⟩
      | some y =>
        obtain ⟨o3, e, hp, hs⟩ := h
        cases skip with
        | true =>
          rw [CollectStop, if_pos ⟨rfl, by simp⟩] at hstop
          exact ⟨vs, st1, o1, ha, .inr ⟨y, _, o3, e, _, hp, hs, .inl ⟨rfl, _, _, hstop,
            by simpa [kept] using h1, rfl, rfl, rfl⟩⟩⟩
        | false =>
          simp only [CollectStop, Bool.false_eq_true, false_and, if_false] at hstop
          obtain ⟨rfl, rfl⟩ := hstop
          exact ⟨vs, st1, o1, ha, .inr ⟨y, _, o3, e, _, hp, hs, .inr ⟨rfl, by simpa [kept] using h1,
            rfl, rfl, rfl⟩⟩⟩

/-- On `"a,aa,"` the list is `a,a`; the element and the separator behind it are eaten too. -/
example : Constructs (σ := Nat) G0 lenH none ['a', ',', 'a', 'a', ',']
    (.sepCollect (.lit ['a']) (.lit [',']) true 1) 0 0 (.ok (Val.list [.base 1, .base 1]) 3 5) :=
  ((C18_sepCollect_exact_partial _ _ true 1 0 0).1 _ _ _).2 ⟨[.base 1], some (.base 1), 2, 3,
    ⟨1, 2, .cons (v := .base 1) (ss := ⟨1, 1⟩) (o1 := 1) ⟨2, by decide⟩ ⟨2, by decide⟩ (.nil _ _),
    3, .literal, ⟨2, by decide⟩, 2, by decide⟩, by decide, rfl, by
      rw [CollectStop, if_pos ⟨rfl, by simp⟩]
      exact .inr ⟨.base 1, 4, ⟨2, by decide⟩, .inl ⟨⟨4, 1⟩, 2, by decide⟩⟩⟩

end Neure
