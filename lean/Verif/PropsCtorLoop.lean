import Verif.CtorLemmas
import Verif.PropsLoop
/-!
# C13–C18 (constructing): repetition and separated lists return their values
-/

namespace Neure

set_option linter.unusedSectionVars false
set_option linter.unusedSimpArgs false

open Demo

variable {ι β σ : Type} [Item ι] {G : Rules ι β} {H : Handler ι β σ} {pol : Option (Pat ι β)}
  {d : List ι}

/-- The number and the values of consecutive constructions are determined. -/
theorem Built.det {p : Pat ι β} {vs vs' : List (Val β)} {st st1 st2 : σ} {o o1 o2 : Nat}
    (h : Built G H pol d p vs st o st1 o1) (h' : Built G H pol d p vs' st o st2 o2) :
    vs <+: vs' ∨ vs' <+: vs := by
  induction h generalizing vs' with
  | nil => exact .inl (List.nil_prefix)
  | cons hc _ ih =>
    cases h' with
    | nil => exact .inr List.nil_prefix
    | cons hc' hb' =>
      cases hc.unique hc'
      rcases ih hb' with h | h
      · exact .inl (List.cons_prefix_cons.mpr ⟨rfl, h⟩)
      · exact .inr (List.cons_prefix_cons.mpr ⟨rfl, h⟩)

/-! ## A demonstration handler -/

/-- The handler used in the examples: it returns the length of the span and
counts its calls. -/
def lenH {ι : Type} : Handler ι Nat Nat := fun _ _ s st => (.ok s.len, st + 1)

/-- A handler that fails on spans of length 2. -/
def pickyH {ι : Type} : Handler ι Nat Nat := fun _ _ s st =>
  (if s.len = 2 then .err (.uid 7) else .ok s.len, st + 1)

/-! ## C13 (constructing): `repeat(range)` -/

/-- **C13 (constructing).** `p.repeat(r)` returns the values of the consecutive
constructions of `p`, in input order; their number is the first count at which
the upper bound forbids one more or `p` fails, and it must be in the range;
otherwise `Error::Repeat` and the offset is back at `o`. -/
theorem C13_repeat_construct (p : Pat ι β) (r : CRange) (st : σ) (o : Nat) :
    (∀ v st' o', Constructs G H pol d (.rep p r) st o (.ok v st' o') ↔
      ∃ vs st1 o1, v = Val.list vs ∧ Built G H pol d p vs st o st1 o1 ∧
        r.lo.allowsFrom vs.length ∧ r.hi.allowsUpTo vs.length ∧
        ((¬ r.hi.allowsUpTo (vs.length + 1) ∧ st' = st1 ∧ o' = o1) ∨
         (r.hi.allowsUpTo (vs.length + 1) ∧ ∃ e, Constructs G H pol d p st1 o1 (.err e st' o')))) ∧
    (∀ e st' o', Constructs G H pol d (.rep p r) st o (.err e st' o') ↔
      e = .repeat_ ∧ o' = o ∧ ∃ vs st1 o1, Built G H pol d p vs st o st1 o1 ∧
        (vs.length = 0 ∨ r.hi.allowsUpTo vs.length) ∧
        ¬ (r.lo.allowsFrom vs.length ∧ r.hi.allowsUpTo vs.length) ∧
        ((¬ r.hi.allowsUpTo (vs.length + 1) ∧ st' = st1) ∨
         (r.hi.allowsUpTo (vs.length + 1) ∧
            ∃ e o2, Constructs G H pol d p st1 o1 (.err e st' o2)))) := by
  have upto : ∀ k, (∀ j, j < k → r.hi.allowsUpTo (j + 1)) ↔ (k = 0 ∨ r.hi.allowsUpTo k) := by
    intro k
    cases k with
    | zero => simp
    | succ k =>
      constructor
      · intro h; exact .inr (h k (by omega))
      · rintro (h | h) j hj
        · omega
        · exact Bound.allowsUpTo_mono (by omega) h
  have mf : ∀ k, r.more k = false ↔ ¬ r.hi.allowsUpTo (k + 1) := by
    intro k; rw [← more_iff]; simp
  have cf : ∀ k, r.contains k = false ↔ ¬ (r.lo.allowsFrom k ∧ r.hi.allowsUpTo k) := by
    intro k; rw [← contains_iff]; simp
  have cn : ∀ p st o r, Constructs G H pol d p st o r ↔ conL G H pol d p st o = some r :=
    fun _ _ _ _ => constructs_iff
  refine ⟨fun v st' o' => ?_, fun e st' o' => ?_⟩ <;>
    rw [constructs_iff, conL_rep, conRepL_iff] <;>
    simp only [conFinish_ok, conFinish_err, upto, and_true, List.nil_append,
      Nat.zero_add, mf, more_iff, contains_iff, cf, and_false, false_or, false_and, or_false,
      reduceCtorEq, exists_false, true_and]
  · constructor
    · rintro ⟨vs, st1, o1, ha, _, ⟨hm, ⟨h1, h2⟩, rfl, rfl, rfl⟩ |
        ⟨hm, e, st2, o2, he, ⟨h1, h2⟩, rfl, rfl, rfl⟩⟩
      · exact ⟨vs, _, _, rfl, ha, h1, h2, .inl ⟨hm, rfl, rfl⟩⟩
      · exact ⟨vs, _, _, rfl, ha, h1, h2, .inr ⟨hm, e, he⟩⟩
    · rintro ⟨vs, st1, o1, rfl, ha, h1, h2, ⟨hm, rfl, rfl⟩ | ⟨hm, e, he⟩⟩
      · exact ⟨vs, _, _, ha, .inr h2, .inl ⟨hm, ⟨h1, h2⟩, rfl, rfl, rfl⟩⟩
      · exact ⟨vs, _, _, ha, .inr h2, .inr ⟨hm, e, _, _, he, ⟨h1, h2⟩, rfl, rfl, rfl⟩⟩
  · constructor
    · rintro ⟨vs, st1, o1, ha, hk, ⟨hm, h1, rfl, rfl, rfl⟩ | ⟨hm, e', st2, o2, he, h1, rfl, rfl, rfl⟩⟩
      · exact ⟨rfl, rfl, vs, _, o1, ha, hk, h1, .inl ⟨hm, rfl⟩⟩
      · exact ⟨rfl, rfl, vs, st1, o1, ha, hk, h1, .inr ⟨hm, _, _, he⟩⟩
    · rintro ⟨rfl, rfl, vs, st1, o1, ha, hk, h1, ⟨hm, rfl⟩ | ⟨hm, e', o2, he⟩⟩
      · exact ⟨vs, _, o1, ha, hk, .inl ⟨hm, h1, rfl, rfl, rfl⟩⟩
      · exact ⟨vs, st1, o1, ha, hk, .inr ⟨hm, _, _, _, he, h1, rfl, rfl, rfl⟩⟩

example : Constructs (σ := Nat) G0 lenH none ['a', 'a', 'a'] (.rep (.lit ['a']) ⟨.incl 1, .excl 3⟩) 0 0
    (.ok (Val.list [.base 1, .base 1]) 2 2) := ⟨6, by decide⟩

/-! ## C14 (constructing): `repeat2` -/

/-- **C14 (constructing, partial).** `p.repeat2::<M,N>()` returns an array of `N`
slots of which the first `k` hold the values of the `k` consecutive
constructions of `p`, in input order, provided `M ≤ k ≤ N` and no further
construction succeeds.  Missing: that it *stops* after `N` — false of the
code: with `N + 1` consecutive elements it panics (second part), see
`C14_repeat2_construct_counterexample`. -/
theorem C14_repeat2_construct_partial (p : Pat ι β) (m n : Nat) (st : σ) (o : Nat) :
    (∀ v st' o', Constructs G H pol d (.rep2 p m n) st o (.ok v st' o') ↔
      ∃ vs st1 o1, v = Val.list (vs.map .some ++ List.replicate (n - vs.length) .none) ∧
        Built G H pol d p vs st o st1 o1 ∧ m ≤ vs.length ∧ vs.length ≤ n ∧
        ∃ e, Constructs G H pol d p st1 o1 (.err e st' o')) ∧
    (∀ e st' o', Constructs G H pol d (.rep2 p m n) st o (.err e st' o') ↔
      e = .repeat2 ∧ o' = o ∧ ∃ vs st1 o1, Built G H pol d p vs st o st1 o1 ∧
        vs.length < m ∧ vs.length ≤ n ∧ ∃ e o2, Constructs G H pol d p st1 o1 (.err e st' o2)) ∧
    (Constructs G H pol d (.rep2 p m n) st o .panic ↔
      (∃ vs st1 o1, Built G H pol d p vs st o st1 o1 ∧ vs.length ≤ n ∧
        Constructs G H pol d p st1 o1 .panic) ∨
      ∃ vs st1 o1, Built G H pol d p vs st o st1 o1 ∧ vs.length = n + 1) := by
  have upto : ∀ k, (∀ j, j < k → j ≤ n ∧ j < n) ↔ k ≤ n := by
    intro k
    constructor
    · intro h
      cases k with
      | zero => omega
      | succ k => have := h k (by omega); omega
    · intro h j hj; omega
  refine ⟨fun v st' o' => ?_, fun e st' o' => ?_, ?_⟩ <;>
    rw [constructs_iff, conL_rep2, conRepL_iff] <;>
    simp only [conFinish_ok, conFinish_err, conFinish_panic, upto, List.nil_append,
      Nat.zero_add, and_false, false_or, false_and, or_false, exists_false, true_and,
      reduceCtorEq, decide_eq_true_eq, decide_eq_false_iff_not, Bool.and_eq_true,
      Bool.and_eq_false_iff, padded]
  · constructor
    · rintro ⟨vs, st1, o1, ha, hl, ⟨hm, _⟩ | ⟨hm, e, st2, o2, he, ⟨h1, h2⟩, rfl, rfl, rfl⟩⟩
      · omega
      · exact ⟨vs, _, _, rfl, ha, h1, h2, e, he⟩
    · rintro ⟨vs, st1, o1, rfl, ha, h1, h2, e, he⟩
      exact ⟨vs, _, _, ha, h2, .inr ⟨h2, e, _, _, he, ⟨h1, h2⟩, rfl, rfl, rfl⟩⟩
  · constructor
    · rintro ⟨vs, st1, o1, ha, hl, ⟨hm, _⟩ | ⟨hm, e', st2, o2, he, h1, rfl, rfl, rfl⟩⟩
      · omega
      · exact ⟨rfl, rfl, vs, st1, o1, ha, by omega, hl, _, _, he⟩
    · rintro ⟨rfl, rfl, vs, st1, o1, ha, h1, h2, e', o2, he⟩
      exact ⟨vs, st1, o1, ha, h2, .inr ⟨h2, _, _, _, he, by omega, rfl, rfl, rfl⟩⟩
  · constructor
    · rintro ⟨vs, st1, o1, ha, hl, hm, h | ⟨hr, v, st2, o2, h⟩⟩
      · exact .inl ⟨vs, st1, o1, ha, hl, h⟩
      · refine .inr ⟨vs ++ [v], st2, o2, ?_, by simp; omega⟩
        clear hl hm hr
        induction ha with
        | nil => exact .cons h (.nil _ _)
        | cons hc _ ih => exact .cons hc (ih h)
    · rintro (⟨vs, st1, o1, ha, hl, h⟩ | ⟨vs, st1, o1, ha, hl⟩)
      · exact ⟨vs, st1, o1, ha, hl, hl, .inl h⟩
      · have key : ∀ k, vs.length = k + 1 → ∃ us v st2 o2, us.length = k ∧
            Built G H pol d p us st o st2 o2 ∧ Constructs G H pol d p st2 o2 (.ok v st1 o1) := by
          clear hl
          induction ha with
          | nil => intro k hk; simp at hk
          | @cons v vs st st1 st' o o1 o' hc hb ih =>
            intro k hk
            cases k with
            | zero =>
              cases vs with
              | nil => cases hb; exact ⟨[], v, _, _, rfl, .nil _ _, hc⟩
              | cons => simp at hk
            | succ k =>
              obtain ⟨us, w, st2, o2, h1, h2, h3⟩ := ih k (by simpa using hk)
              exact ⟨v :: us, w, st2, o2, by simp [h1], .cons hc h2, h3⟩
        obtain ⟨us, v, st2, o2, h1, h2, h3⟩ := key n hl
        exact ⟨us, st2, o2, h2, by omega, by omega, .inr ⟨by omega, v, st1, o1, h3⟩⟩

example : Constructs (σ := Nat) G0 lenH none ['a', 'a'] (.rep2 (.lit ['a']) 1 3) 0 0
    (.ok (Val.list [.some (.base 1), .some (.base 1), .none]) 2 2) := ⟨6, by decide⟩

/-- **C14 (constructing, counterexample).** `"a".repeat2::<1,2>()` on `"aaa"`
should return two of the three; constructing it panics (index out of bounds). -/
theorem C14_repeat2_construct_counterexample :
    Constructs (σ := Nat) G0 lenH none ['a', 'a', 'a'] (.rep2 (.lit ['a']) 1 2) 0 0 .panic :=
  ⟨8, by decide⟩

/-! ## C15 (constructing): `collect` -/

/-- **C15 (constructing).** `p.collect().at_least(min)` returns the values of the
consecutive constructions of `p` in input order; it stops at the first failure
of `p` and needs at least `min` values, otherwise `Error::Collect` with the
offset restored. -/
theorem C15_collect_construct (p : Pat ι β) (min : Nat) (st : σ) (o : Nat) :
    (∀ v st' o', Constructs G H pol d (.collect p min) st o (.ok v st' o') ↔
      ∃ vs st1 o1 e, v = Val.list vs ∧ Built G H pol d p vs st o st1 o1 ∧ min ≤ vs.length ∧
        Constructs G H pol d p st1 o1 (.err e st' o')) ∧
    (∀ e st' o', Constructs G H pol d (.collect p min) st o (.err e st' o') ↔
      e = .collect ∧ o' = o ∧ ∃ vs st1 o1 e o2, Built G H pol d p vs st o st1 o1 ∧
        vs.length < min ∧ Constructs G H pol d p st1 o1 (.err e st' o2)) ∧
    (Constructs G H pol d (.collect p min) st o .panic ↔
      ∃ vs st1 o1, Built G H pol d p vs st o st1 o1 ∧ Constructs G H pol d p st1 o1 .panic) := by
  refine ⟨fun v st' o' => ?_, fun e st' o' => ?_, ?_⟩ <;>
    rw [constructs_iff, conL_collect, conRepL_iff] <;>
    simp only [conFinish_ok, conFinish_err, conFinish_panic, implies_true, List.nil_append,
      Nat.zero_add, and_false, false_or, false_and, or_false, exists_false, true_and, and_self,
      reduceCtorEq, decide_eq_true_eq, decide_eq_false_iff_not, ge_iff_le, Nat.not_le]
  · constructor
    · rintro ⟨vs, st1, o1, ha, e, st2, o2, he, h1, rfl, rfl, rfl⟩
      exact ⟨vs, st1, o1, e, rfl, ha, h1, he⟩
    · rintro ⟨vs, st1, o1, e, rfl, ha, h1, he⟩
      exact ⟨vs, st1, o1, ha, e, _, _, he, h1, rfl, rfl, rfl⟩
  · constructor
    · rintro ⟨vs, st1, o1, ha, e', st2, o2, he, h1, rfl, rfl, rfl⟩
      exact ⟨rfl, rfl, vs, st1, o1, e', _, ha, h1, he⟩
    · rintro ⟨rfl, rfl, vs, st1, o1, e', o2, ha, h1, he⟩
      exact ⟨vs, st1, o1, ha, e', _, _, he, h1, rfl, rfl, rfl⟩

example : Constructs (σ := Nat) G0 lenH none ['a', 'b', 'b', 'c']
    (.collect (.or (.lit ['a']) (.lit ['b', 'b'])) 2) 0 0 (.ok (Val.list [.base 1, .base 2]) 2 3) :=
  ⟨7, by decide⟩

/-! ## C16 (constructing): `sep` -/

/-- **C16 (constructing).** `p.sep(s).skip(skip).at_least(min)` returns, in input
order, the values of the elements followed by a separator and, with
`skip = true`, the value of the final element that has none; at least `min`
of them are needed.  (With `skip = false` that element is dropped, although its
input stays consumed: `o'`.) -/
theorem C16_sep_construct (p s : Pat ι β) (skip : Bool) (min : Nat) (st : σ) (o : Nat) :
    (∀ v st' o', Constructs G H pol d (.sep p s skip min) st o (.ok v st' o') ↔
      ∃ vs x, BuiltList G H pol d p s st o vs x st' o' ∧
        ((x = none ∧ min ≤ vs.length ∧ v = Val.list vs) ∨
         (∃ y, x = some y ∧ skip = true ∧ min ≤ vs.length + 1 ∧ v = Val.list (vs ++ [y])) ∨
         (x ≠ none ∧ skip = false ∧ min ≤ vs.length ∧ v = Val.list vs))) ∧
    (∀ e st' o', Constructs G H pol d (.sep p s skip min) st o (.err e st' o') ↔
      e = .separate ∧ o' = o ∧ ∃ vs x o1, BuiltList G H pol d p s st o vs x st' o1 ∧
        ((x = none ∧ vs.length < min) ∨
         (x ≠ none ∧ skip = true ∧ vs.length + 1 < min) ∨
         (x ≠ none ∧ skip = false ∧ vs.length < min))) := by
  refine ⟨fun v st' o' => ?_, fun e st' o' => ?_⟩ <;>
    rw [constructs_iff, conL_sep, conSepL_iff] <;>
    simp only [conFinish_ok, conFinish_err, implies_true, List.nil_append, and_self,
      Nat.zero_add, and_false, false_or, false_and, or_false, ge_iff_le, exists_false,
      reduceCtorEq, decide_eq_true_eq, decide_eq_false_iff_not, true_and, Nat.not_le]
  · constructor
    · rintro ⟨vs, st1, o1, ha, ⟨e, st2, o2, he, h1, rfl, rfl, rfl⟩ | ⟨y, st2, o2, e, o3, hp, hs,
        ⟨hk, h1, rfl, rfl, rfl⟩ | ⟨hk, h1, rfl, rfl, rfl⟩⟩⟩
      · exact ⟨vs, none, ⟨st1, o1, ha, e, he⟩, .inl ⟨rfl, h1, rfl⟩⟩
      · exact ⟨vs, some y, ⟨st1, o1, ha, o2, e, hp, hs⟩, .inr (.inl ⟨y, rfl, hk, h1, rfl⟩)⟩
      · exact ⟨vs, some y, ⟨st1, o1, ha, o2, e, hp, hs⟩, .inr (.inr ⟨by simp, hk, h1, rfl⟩)⟩
    · rintro ⟨vs, x, ⟨st1, o1, ha, h⟩, ⟨rfl, h1, rfl⟩ | ⟨y, rfl, hk, h1, rfl⟩ | ⟨hx, hk, h1, rfl⟩⟩
      · obtain ⟨e, he⟩ := h
        exact ⟨vs, _, o1, ha, .inl ⟨e, _, _, he, h1, rfl, rfl, rfl⟩⟩
      · obtain ⟨o2, e, hp, hs⟩ := h
        exact ⟨vs, _, o1, ha, .inr ⟨y, _, o2, e, _, hp, hs, .inl ⟨hk, h1, rfl, rfl, rfl⟩⟩⟩
      · cases x with
        | none => exact absurd rfl hx
        | some y =>
          obtain ⟨o2, e, hp, hs⟩ := h
          exact ⟨vs, _, o1, ha, .inr ⟨y, _, o2, e, _, hp, hs, .inr ⟨hk, h1, rfl, rfl, rfl⟩⟩⟩
  · constructor
    · rintro ⟨vs, st1, o1, ha, ⟨e, st2, o2, he, h1, rfl, rfl, rfl⟩ | ⟨y, st2, o2, e, o3, hp, hs,
        ⟨hk, h1, rfl, rfl, rfl⟩ | ⟨hk, h1, rfl, rfl, rfl⟩⟩⟩
      · exact ⟨rfl, rfl, vs, none, _, ⟨st1, o1, ha, e, he⟩, .inl ⟨rfl, h1⟩⟩
      · exact ⟨rfl, rfl, vs, some y, _, ⟨st1, o1, ha, o2, e, hp, hs⟩, .inr (.inl ⟨by simp, hk, h1⟩)⟩
      · exact ⟨rfl, rfl, vs, some y, _, ⟨st1, o1, ha, o2, e, hp, hs⟩, .inr (.inr ⟨by simp, hk, h1⟩)⟩
    · rintro ⟨rfl, rfl, vs, x, oe, ⟨st1, o1, ha, h⟩, ⟨rfl, h1⟩ | ⟨hx, hk, h1⟩ | ⟨hx, hk, h1⟩⟩
      · obtain ⟨e, he⟩ := h
        exact ⟨vs, _, o1, ha, .inl ⟨e, _, _, he, h1, rfl, rfl, rfl⟩⟩
      · cases x with
        | none => exact absurd rfl hx
        | some y =>
          obtain ⟨o2, e, hp, hs⟩ := h
          exact ⟨vs, _, o1, ha, .inr ⟨y, _, o2, e, _, hp, hs, .inl ⟨hk, h1, rfl, rfl, rfl⟩⟩⟩
      · cases x with
        | none => exact absurd rfl hx
        | some y =>
          obtain ⟨o2, e, hp, hs⟩ := h
          exact ⟨vs, _, o1, ha, .inr ⟨y, _, o2, e, _, hp, hs, .inr ⟨hk, h1, rfl, rfl, rfl⟩⟩⟩

example : Constructs (σ := Nat) G0 lenH none ['a', ',', 'a', ','] (.sep (.lit ['a']) (.lit [',']) true 1)
    0 0 (.ok (Val.list [.base 1, .base 1]) 2 4) := ⟨8, by decide⟩
example : Constructs (σ := Nat) G0 lenH none ['a', ',', 'a'] (.sep (.lit ['a']) (.lit [',']) true 2)
    0 0 (.ok (Val.list [.base 1, .base 1]) 2 3) := ⟨8, by decide⟩
example : Constructs (σ := Nat) G0 lenH none ['a', ',', 'a'] (.sep (.lit ['a']) (.lit [',']) false 1)
    0 0 (.ok (Val.list [.base 1]) 2 3) := ⟨8, by decide⟩

/-! ## C17 (constructing): `sep2` -/

/-- What a separated list finds is determined. -/
theorem BuiltSep.bound {p s : Pat ι β} {vs us : List (Val β)} {st st1 st2 : σ} {o o1 o2 : Nat}
    (h : BuiltSep G H pol d p s vs st o st1 o1) (h' : BuiltSep G H pol d p s us st o st2 o2)
    (hend : ¬ ∃ v st3 oo ss o3, Constructs G H pol d p st1 o1 (.ok v st3 oo) ∧
      Runs G pol d s oo (.ok ss o3)) : us.length ≤ vs.length := by
  induction h generalizing us with
  | nil =>
    cases h' with
    | nil => exact Nat.le_refl _
    | cons hp hs _ => exact absurd ⟨_, _, _, _, _, hp, hs⟩ hend
  | cons hp hs _ ih =>
    cases h' with
    | nil => simp
    | cons hp' hs' ha' =>
      cases hp.unique hp'
      cases hs.unique hs'
      have := ih ha' hend
      simp only [List.length_cons]; omega

theorem BuiltList.last {p s : Pat ι β} {st st' : σ} {o o' : Nat} {vs : List (Val β)}
    {x : Option (Val β)} (h : BuiltList G H pol d p s st o vs x st' o') :
    ∃ st1 o1, BuiltSep G H pol d p s vs st o st1 o1 ∧
      ¬ ∃ v st3 oo ss o3, Constructs G H pol d p st1 o1 (.ok v st3 oo) ∧
      Runs G pol d s oo (.ok ss o3) := by
  obtain ⟨st1, o1, hb, hx⟩ := h
  refine ⟨st1, o1, hb, ?_⟩
  rintro ⟨v, st3, oo, ss, o3, hp, hs⟩
  cases x with
  | none => obtain ⟨e, he⟩ := hx; cases he.unique hp
  | some y =>
    obtain ⟨o2, e, hp', hs'⟩ := hx
    cases hp.unique hp'
    cases hs.unique hs'

/-- Number of elements a separated list found keeps. -/
def kept (skip : Bool) (vs : List (Val β)) (x : Option (Val β)) : List (Val β) :=
  match x with
  | some y => if skip then vs ++ [y] else vs
  | none => vs

/-- **C17 (constructing, partial).** When the list found (`kept`: the elements
followed by a separator and, with `skip`, the final one) has at most `N`
elements, `p.sep2::<M,N>(s)` returns an array of `N` slots whose first ones
hold the elements in input order, if there are at least `M`; otherwise
`Error::Separate2` with the offset restored.  Missing: lists with more than `N`
elements, where the code panics, see `C17_sep2_construct_counterexample`. -/
theorem C17_sep2_construct_partial (p s : Pat ι β) (skip : Bool) (m n : Nat) (st st' : σ) (o oe : Nat)
    (vs : List (Val β)) (x : Option (Val β)) (hl : BuiltList G H pol d p s st o vs x st' oe)
    (hk : (kept skip vs x).length ≤ n) (r : CRes σ (Val β)) :
    Constructs G H pol d (.sep2 p s skip m n) st o r ↔
      r = if m ≤ (kept skip vs x).length then
        .ok (Val.list ((kept skip vs x).map .some ++
          List.replicate (n - (kept skip vs x).length) .none)) st' oe
      else .err .separate2 st' o := by
  have hx := hl
  obtain ⟨st1, o1, ha, h⟩ := hx
  suffices hr : Constructs G H pol d (.sep2 p s skip m n) st o
      (if m ≤ (kept skip vs x).length then
        .ok (Val.list ((kept skip vs x).map .some ++
          List.replicate (n - (kept skip vs x).length) .none)) st' oe
      else .err .separate2 st' o) by
    constructor
    · intro h'; exact h'.unique hr
    · rintro rfl; exact hr
  rw [constructs_iff, conL_sep2, conSepL_iff]
  have hlen : vs.length ≤ n := by
    cases x with
    | none => exact hk
    | some y => cases skip <;> simp [kept] at hk <;> omega
  refine ⟨vs, st1, o1, ha, fun j hj => ?_, .inr ⟨?_, ?_⟩⟩
  · simp; omega
  · simp; exact hlen
  · cases x with
    | none =>
      obtain ⟨e, he⟩ := h
      refine .inl ⟨e, st', oe, he, ?_⟩
      simp only [conFinish, kept, Nat.zero_add, List.nil_append, padded, ge_iff_le, decide_eq_true_eq]
      split <;> rename_i hh <;> simp only [hh, if_true, if_false]
    | some y =>
      obtain ⟨o2, e, hp, hs⟩ := h
      refine .inr (.inl ⟨y, st', o2, e, oe, hp, hs, ?_⟩)
      cases skip with
      | false =>
        refine .inr (.inr ⟨rfl, ?_⟩)
        simp only [conFinish, kept, Nat.zero_add, List.nil_append, padded, ge_iff_le,
          decide_eq_true_eq, Bool.false_eq_true, if_false]
        split <;> rename_i hh <;> simp only [hh, if_true, if_false]
      | true =>
        simp only [kept, if_true, List.length_append, List.length_cons, List.length_nil] at hk ⊢
        refine .inl ⟨trivial, by simp; omega, ?_⟩
        simp only [conFinish, Nat.zero_add, List.nil_append, padded, ge_iff_le,
          decide_eq_true_eq, List.length_append, List.length_cons, List.length_nil]
        split <;> rename_i hh <;> simp only [hh, if_true, if_false]

example : BuiltList (σ := Nat) G0 lenH none ['a', ',', 'a'] (.lit ['a']) (.lit [',']) 0 0
    [.base 1] (some (.base 1)) 2 3 ∧ (kept true [Val.base 1] (some (Val.base 1))).length ≤ 2 :=
  ⟨⟨1, 2, .cons (v := .base 1) (ss := ⟨1, 1⟩) (o1 := 1) ⟨2, by decide⟩ ⟨2, by decide⟩ (.nil _ _),
    3, .literal, ⟨2, by decide⟩, 2, by decide⟩, by decide⟩

/-- **C17 (constructing, counterexample).** `"a".sep2::<_,1,2>(",")` on `"a,a,a"`
panics when constructing. -/
theorem C17_sep2_construct_counterexample :
    Constructs (σ := Nat) G0 lenH none ['a', ',', 'a', ',', 'a']
      (.sep2 (.lit ['a']) (.lit [',']) true 1 2) 0 0 .panic := ⟨9, by decide⟩

/-! ## C18: `sep_collect` agrees with `sep` -/

/-- **C18 (partial).** Constructing `p.sep_collect(s)` gives the same values,
handler state and offset as `p.sep(s)` (only the error differs:
`Error::SepCollect` instead of `Error::Separate`) provided that, in case
`skip = true` and the list ends with an element without separator, `p` fails
directly after that element without moving the offset and without the handler
being affected.  Missing: the other case, where `sep_collect` constructs one
more element after the end of the list, see `C18_sepCollect_counterexample`. -/
theorem C18_sepCollect_partial (p s : Pat ι β) (skip : Bool) (min : Nat) (st st' : σ) (o oe : Nat)
    (vs : List (Val β)) (x : Option (Val β)) (hl : BuiltList G H pol d p s st o vs x st' oe)
    (hend : skip = true → x ≠ none → ∃ e, Constructs G H pol d p st' oe (.err e st' oe)) :
    (∀ v st2 o2, Constructs G H pol d (.sepCollect p s skip min) st o (.ok v st2 o2) ↔
      Constructs G H pol d (.sep p s skip min) st o (.ok v st2 o2)) ∧
    (∀ st2 o2, Constructs G H pol d (.sepCollect p s skip min) st o (.err .sepCollect st2 o2) ↔
      Constructs G H pol d (.sep p s skip min) st o (.err .separate st2 o2)) ∧
    ¬ Constructs G H pol d (.sepCollect p s skip min) st o .panic := by
  -- both results are determined by the list found
  have h1 : Constructs G H pol d (.sep p s skip min) st o
      (if min ≤ (kept skip vs x).length then .ok (Val.list (kept skip vs x)) st' oe
       else .err .separate st' o) := by
    split
    · next h =>
      rw [(C16_sep_construct p s skip min st o).1]
      refine ⟨vs, x, hl, ?_⟩
      cases x with
      | none => exact .inl ⟨rfl, h, rfl⟩
      | some y =>
        cases skip with
        | true => exact .inr (.inl ⟨y, rfl, rfl, by simpa [kept] using h, rfl⟩)
        | false => exact .inr (.inr ⟨by simp, rfl, by simpa [kept] using h, rfl⟩)
    · next h =>
      rw [(C16_sep_construct p s skip min st o).2]
      refine ⟨rfl, rfl, vs, x, oe, hl, ?_⟩
      cases x with
      | none => exact .inl ⟨rfl, by simpa [kept] using h⟩
      | some y =>
        cases skip with
        | true => exact .inr (.inl ⟨by simp, rfl, by simpa [kept] using h⟩)
        | false => exact .inr (.inr ⟨by simp, rfl, by simpa [kept] using h⟩)
  have h2 : Constructs G H pol d (.sepCollect p s skip min) st o
      (if min ≤ (kept skip vs x).length then .ok (Val.list (kept skip vs x)) st' oe
       else .err .sepCollect st' o) := by
    obtain ⟨st1, o1, ha, h⟩ := hl
    rw [constructs_iff, conL_sepCollect, conSepCL_iff]
    refine ⟨vs, st1, o1, ha, ?_⟩
    cases x with
    | none =>
      obtain ⟨e, he⟩ := h
      refine .inl ⟨e, st', oe, he, ?_⟩
      simp only [conFinish, kept, Nat.zero_add, List.nil_append, ge_iff_le, decide_eq_true_eq]
      split <;> rename_i hh <;> simp only [hh, if_true, if_false]
    | some y =>
      obtain ⟨o2, e, hp, hs⟩ := h
      refine .inr (.inl ⟨y, st', o2, e, oe, hp, hs, ?_⟩)
      cases skip with
      | false =>
        refine .inr ⟨rfl, ?_⟩
        simp only [conFinish, kept, Nat.zero_add, List.nil_append, ge_iff_le, decide_eq_true_eq,
          Bool.false_eq_true, if_false]
        split <;> rename_i hh <;> simp only [hh, if_true, if_false]
      | true =>
        refine .inl ⟨rfl, ?_⟩
        obtain ⟨e2, he2⟩ := hend rfl (by simp)
        rw [conSepCL_eq, constructs_iff.mp he2]
        simp only [caseC, conFinish, kept, Nat.zero_add, List.nil_append, ge_iff_le,
          decide_eq_true_eq, if_true, List.length_append, List.length_cons, List.length_nil]
        split <;> rename_i hh <;> simp only [hh, if_true, if_false]
  have iff1 : ∀ r, Constructs G H pol d (.sep p s skip min) st o r ↔ r = _ :=
    fun r => ⟨fun h => h.unique h1, fun h => h ▸ h1⟩
  have iff2 : ∀ r, Constructs G H pol d (.sepCollect p s skip min) st o r ↔ r = _ :=
    fun r => ⟨fun h => h.unique h2, fun h => h ▸ h2⟩
  refine ⟨fun v st2 o2 => ?_, fun st2 o2 => ?_, ?_⟩
  · rw [iff1, iff2]; split <;> simp
  · rw [iff1, iff2]; split <;> simp
  · rw [iff2]; split <;> simp

example : BuiltList (σ := Nat) G0 lenH none ['a', ',', 'a'] (.lit ['a']) (.lit [',']) 0 0
    [.base 1] (some (.base 1)) 2 3 ∧
    ∃ e, Constructs (σ := Nat) G0 lenH none ['a', ',', 'a'] (.lit ['a']) 2 3 (.err e 2 3) :=
  ⟨⟨1, 2, .cons (v := .base 1) (ss := ⟨1, 1⟩) (o1 := 1) ⟨2, by decide⟩ ⟨2, by decide⟩ (.nil _ _),
    3, .literal, ⟨2, by decide⟩, 2, by decide⟩, .literal, 2, by decide⟩

/-- **C18 (counterexample).** On `"a,ab"`-like input where another element starts
directly after the last one, `sep_collect` consumes that element (and calls the
handler on it) although it does not return it: on `"a,aa"` with `p = "a"` the
list is two elements long; `sep` stops at offset 3, `sep_collect` at 4. -/
theorem C18_sepCollect_counterexample :
    Constructs (σ := Nat) G0 lenH none ['a', ',', 'a', 'a'] (.sep (.lit ['a']) (.lit [',']) true 1) 0 0
      (.ok (Val.list [.base 1, .base 1]) 2 3) ∧
    Constructs (σ := Nat) G0 lenH none ['a', ',', 'a', 'a']
      (.sepCollect (.lit ['a']) (.lit [',']) true 1) 0 0
      (.ok (Val.list [.base 1, .base 1]) 3 4) := ⟨⟨9, by decide⟩, ⟨9, by decide⟩⟩

/-- **C18 (matching mode).** When only matching, `sep_collect` and `sep` agree
completely. -/
theorem C18_sepCollect_match (p s : Pat ι β) (skip : Bool) (min o : Nat) :
    (∀ sp o', Parses G pol d (.sepCollect p s skip min) o (.ok sp o') ↔
      Parses G pol d (.sep p s skip min) o (.ok sp o')) ∧
    (∀ o', Parses G pol d (.sepCollect p s skip min) o (.err .sepCollect o') ↔
      Parses G pol d (.sep p s skip min) o (.err .separate o')) ∧
    (Parses G pol d (.sepCollect p s skip min) o .panic ↔
      Parses G pol d (.sep p s skip min) o .panic) :=
  sepCollect_match_eq_sep p s skip min o

end Neure
