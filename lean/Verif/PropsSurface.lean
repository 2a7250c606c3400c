import Verif.Surface
import Verif.PropsCtor
import Verif.PropsCtorBase
import Verif.PropsLoop
import Verif.PropsUnit
import Verif.PropsAlgebra
import Verif.AttrLemmas
/-!
# C68: what the builder methods build; C69: room for the values
-/

namespace Neure

set_option linter.unusedSectionVars false
set_option linter.unusedSimpArgs false

open Demo Surface

/-! ## Specification -/

section
variable {ι β : Type} [Item ι]

/-- Constructing `p` at `i` yields the value `v` and ends at `j`. -/
def Gives (G : Rules ι β) (H : Handler ι β Unit) (pol : Option (Pat ι β)) (d : List ι) (p : Pat ι β)
    (i : Nat) (v : Val β) (j : Nat) : Prop := Constructs G H pol d p () i (.ok v () j)

/-- Constructing `p` at `i` fails and leaves the position at `j`. -/
def Refuses (G : Rules ι β) (H : Handler ι β Unit) (pol : Option (Pat ι β)) (d : List ι) (p : Pat ι β)
    (i j : Nat) : Prop := ∃ e, Constructs G H pol d p () i (.err e () j)

/-- Matching `p` at `i` succeeds and ends at `j`. -/
def Passes (G : Rules ι β) (pol : Option (Pat ι β)) (d : List ι) (p : Pat ι β) (i j : Nat) : Prop :=
  ∃ s, Runs G pol d p i (.ok s j)

/-- Matching `p` at `i` fails and leaves the position at `j`. -/
def Balks (G : Rules ι β) (pol : Option (Pat ι β)) (d : List ι) (p : Pat ι β) (i j : Nat) : Prop :=
  ∃ e, Runs G pol d p i (.err e j)

/-- `p` again and again from `i` yields `vs` and ends at `j`. -/
inductive InRow (G : Rules ι β) (H : Handler ι β Unit) (pol : Option (Pat ι β)) (d : List ι) (p : Pat ι β) :
    Nat → List (Val β) → Nat → Prop where
  | nil {i} : InRow G H pol d p i [] i
  | cons {i v k vs j} : Gives G H pol d p i v k → InRow G H pol d p k vs j → InRow G H pol d p i (v :: vs) j

/-- A non-empty list of `p`s with `s` between them, as long as possible; a last
separator with nothing behind it is taken too. -/
inductive Listing (G : Rules ι β) (H : Handler ι β Unit) (pol : Option (Pat ι β)) (d : List ι)
    (p s : Pat ι β) : Nat → List (Val β) → Nat → Prop where
  | last {i v k j} : Gives G H pol d p i v k → Balks G pol d s k j → Listing G H pol d p s i [v] j
  | trailing {i v k l j} : Gives G H pol d p i v k → Passes G pol d s k l → Refuses G H pol d p l j →
      Listing G H pol d p s i [v] j
  | more {i v k l vs j} : Gives G H pol d p i v k → Passes G pol d s k l → Listing G H pol d p s l vs j →
      Listing G H pol d p s i (v :: vs) j

/-- `p`s, each with `s` behind it. -/
inductive Closed (G : Rules ι β) (H : Handler ι β Unit) (pol : Option (Pat ι β)) (d : List ι)
    (p s : Pat ι β) : Nat → List (Val β) → Nat → Prop where
  | nil {i} : Closed G H pol d p s i [] i
  | cons {i v k l vs j} : Gives G H pol d p i v k → Passes G pol d s k l → Closed G H pol d p s l vs j →
      Closed G H pol d p s i (v :: vs) j

end

/-! ## Proofs -/

variable {ι β : Type} [Item ι] {G : Rules ι β} {H : Handler ι β Unit} {pol : Option (Pat ι β)}
  {d : List ι}

theorem Constructs.uniq {p : Pat ι β} {st : Unit} {i : Nat} {r r' : CRes Unit (Val β)}
    (h : Constructs G H pol d p st i r) (h' : Constructs G H pol d p st i r') : r = r' := by
  rw [con_iff] at h h'
  exact Option.some.inj (h.symm.trans h')

theorem inRow_iff {p : Pat ι β} {i vs j} : InRow G H pol d p i vs j ↔ Built G H pol d p vs () i () j := by
  constructor
  · intro h
    induction h with
    | nil => exact .nil _ _
    | cons h _ ih => exact .cons h ih
  · have : ∀ st st', Built G H pol d p vs st i st' j → InRow G H pol d p i vs j := by
      intro st st' h
      induction h with
      | nil => exact .nil
      | cons h _ ih => exact .cons h ih
    exact this _ _

theorem listing_of {p s : Pat ι β} {vs st i st' k x j} (hb : BuiltSep G H pol d p s vs st i st' k)
    (hx : match (x : Option (Val β)) with
      | none => Refuses G H pol d p k j
      | some v => ∃ o2, Gives G H pol d p k v o2 ∧ Balks G pol d s o2 j) :
    match x with
    | none => vs = [] ∧ i = k ∨ Listing G H pol d p s i vs j
    | some v => Listing G H pol d p s i (vs ++ [v]) j := by
  induction hb with
  | nil =>
    cases x with
    | none => exact .inl ⟨rfl, rfl⟩
    | some v => obtain ⟨_, h1, h2⟩ := hx; exact .last h1 h2
  | cons h1 h2 h3 ih =>
    have := ih hx
    cases x with
    | none =>
      rcases this with ⟨rfl, rfl⟩ | h
      · exact .inr (.trailing h1 ⟨_, h2⟩ hx)
      · exact .inr (.more h1 ⟨_, h2⟩ h)
    | some v => exact .more h1 ⟨_, h2⟩ this

theorem listing_iff {p s : Pat ι β} {ws i j} : Listing G H pol d p s i ws j ↔
    ∃ vs x, BuiltList G H pol d p s () i vs x () j ∧
      ((x = none ∧ vs ≠ [] ∧ ws = vs) ∨ ∃ v, x = some v ∧ ws = vs ++ [v]) := by
  constructor
  · intro h
    induction h with
    | last h1 h2 =>
      obtain ⟨e, h2⟩ := h2
      exact ⟨[], some _, ⟨(), _, .nil _ _, _, e, h1, h2⟩, .inr ⟨_, rfl, rfl⟩⟩
    | trailing h1 h2 h3 =>
      obtain ⟨sp, h2⟩ := h2
      obtain ⟨e, h3⟩ := h3
      exact ⟨[_], none, ⟨(), _, .cons h1 h2 (.nil _ _), e, h3⟩, .inl ⟨rfl, by simp, rfl⟩⟩
    | more h1 h2 h3 ih =>
      obtain ⟨sp, h2⟩ := h2
      obtain ⟨vs, x, ⟨st1, o1, hb, hx⟩, hw⟩ := ih
      refine ⟨_ :: vs, x, ⟨st1, o1, .cons h1 h2 hb, hx⟩, ?_⟩
      rcases hw with ⟨rfl, _, rfl⟩ | ⟨v, rfl, rfl⟩
      · exact .inl ⟨rfl, by simp, rfl⟩
      · exact .inr ⟨v, rfl, rfl⟩
  · rintro ⟨vs, x, ⟨st1, o1, hb, hx⟩, hw⟩
    have := listing_of (x := x) (j := j) hb (by
      cases x with
      | none => exact hx
      | some v => obtain ⟨o2, e, h1, h2⟩ := hx; exact ⟨o2, h1, e, h2⟩)
    rcases hw with ⟨rfl, hv, rfl⟩ | ⟨v, rfl, rfl⟩
    · rcases this with ⟨h, _⟩ | h
      · exact absurd h hv
      · exact h
    · exact this

/-- Every value is where the match lies. -/
def whereH : Handler Char (Nat × Nat) Unit := fun _ _ s st => (.ok (s.beg, s.len), st)

/-! ## C68 -/

/-- **C68 (sequencing).** In which order the parts are taken, and whose value is
kept, for `then`, `prefix`, `suffix`, `enclose`, `sep_once`. -/
theorem C68_sequence (p q a b : Pat ι β) (i j : Nat) (v : Val β) :
    (Gives G H pol d (then_ p q) i v j ↔
      ∃ x y k, v = .pair x y ∧ Gives G H pol d p i x k ∧ Gives G H pol d q k y j) ∧
    (Gives G H pol d (prefix_ p a) i v j ↔ ∃ k, Passes G pol d a i k ∧ Gives G H pol d p k v j) ∧
    (Gives G H pol d (suffix p a) i v j ↔ ∃ k, Gives G H pol d p i v k ∧ Passes G pol d a k j) ∧
    (Gives G H pol d (Surface.enclose p a b) i v j ↔
      ∃ k l, Passes G pol d a i k ∧ Gives G H pol d p k v l ∧ Passes G pol d b l j) ∧
    (Gives G H pol d (Surface.sepOnce p a q) i v j ↔
      ∃ x y k l, v = .pair x y ∧ Gives G H pol d p i x k ∧ Passes G pol d a k l ∧ Gives G H pol d q l y j) := by
  unfold Gives Passes then_ prefix_ suffix Surface.enclose Surface.sepOnce
  rw [(C08_then_construct p q () i).1, (C08_prefix_construct a p () i).1, (C08_suffix_construct p a () i).1,
    (C08_enclose_construct a p b () i).1, (C08_sepOnce_construct p a q () i).1]
  grind

/-- `enclose` reads its opening first, its closing last. -/
example : Gives G0 whereH none ['(', 'x', ')'] (Surface.enclose (.lit ['x']) (.lit ['(']) (.lit [')'])) 0
    (.base (1, 1)) 3 := ⟨5, by decide⟩

example : Gives G0 whereH none ['k', ':', 'v'] (Surface.sepOnce (.lit ['k']) (.lit [':']) (.lit ['v'])) 0
    (.pair (.base (0, 1)) (.base (2, 1))) 3 := ⟨5, by decide⟩

/-- **C68 (choosing).** `or`, `longest`, `opt`, `if_then`, `if_else`. -/
theorem C68_choose (p q t : Pat ι β) (f : List ι → Nat → Out Bool) (i j : Nat) (v : Val β) :
    (Gives G H pol d (Surface.or p q) i v j ↔
      Gives G H pol d p i v j ∨ ((∃ k, Refuses G H pol d p i k) ∧ Gives G H pol d q i v j)) ∧
    (Gives G H pol d (Surface.longest p q) i v j ↔
      (Gives G H pol d p i v j ∧ ((∃ k, Refuses G H pol d q i k) ∨ ∃ w k, Gives G H pol d q i w k ∧ k ≤ j)) ∨
      (Gives G H pol d q i v j ∧ ((∃ k, Refuses G H pol d p i k) ∨ ∃ w k, Gives G H pol d p i w k ∧ k < j))) ∧
    (Gives G H pol d (Surface.opt p) i v j ↔
      (∃ w, v = .some w ∧ Gives G H pol d p i w j) ∨ (v = .none ∧ j = i ∧ ∃ k, Refuses G H pol d p i k)) ∧
    (Gives G H pol d (Surface.ifThen p t q) i v j ↔
      (∃ x k, v = .pair x .none ∧ Gives G H pol d p i x j ∧ Balks G pol d t j k) ∨
      ∃ x y k l, v = .pair x (.some y) ∧ Gives G H pol d p i x k ∧ Passes G pol d t k l ∧
        Gives G H pol d q l y j) ∧
    (Gives G H pol d (ifElse p f q) i v j ↔
      (f d i = .ok true ∧ Gives G H pol d p i v j) ∨ (f d i = .ok false ∧ Gives G H pol d q i v j)) := by
  unfold Gives Passes Balks Refuses Surface.or Surface.longest Surface.opt Surface.ifThen ifElse
  rw [(C06_or_construct p q () i).1, (C07_longest_construct p q () i).1, (C10_opt_construct p () i).1,
    (C09_ifThen_construct p t q () i).1, (C50_branch_construct f p q () i).1]
  refine ⟨by grind, ?_, by grind, by grind, Iff.rfl⟩
  constructor
  · rintro (⟨_, w, ob, h1, h2, h3⟩ | ⟨_, w, oa, h1, h2, h3⟩ | ⟨_, e, ob, h1, h2⟩ | ⟨_, e, oa, h1, h2⟩)
    · exact .inl ⟨h1, .inr ⟨_, _, h2, h3⟩⟩
    · exact .inr ⟨h2, .inr ⟨_, _, h1, h3⟩⟩
    · exact .inl ⟨h1, .inl ⟨_, _, h2⟩⟩
    · exact .inr ⟨h2, .inl ⟨_, _, h1⟩⟩
  · rintro (⟨h1, ⟨_, _, h2⟩ | ⟨_, _, h2, h3⟩⟩ | ⟨h2, ⟨_, _, h1⟩ | ⟨_, _, h1, h3⟩⟩)
    · exact .inr (.inr (.inl ⟨_, _, _, h1, h2⟩))
    · exact .inl ⟨_, _, _, h1, h2, h3⟩
    · exact .inr (.inr (.inr ⟨_, _, _, h1, h2⟩))
    · exact .inr (.inl ⟨_, _, _, h1, h2, h3⟩)

example : Gives G0 whereH none ['a', 'b'] (Surface.longest (.lit ['a']) (.lit ['a', 'b'])) 0 (.base (0, 2)) 2 :=
  ⟨5, by decide⟩

example : Gives G0 whereH none ['a', 'b', 'c'] (Surface.ifThen (.lit ['a']) (.lit ['b']) (.lit ['c'])) 0
    (.pair (.base (0, 1)) (.some (.base (2, 1)))) 3 := ⟨5, by decide⟩

/-- Assertions look ahead without moving: `!p` (`regex::not(p)`) matches, taking
nothing, where `p` fails; `peek(p)` where it matches. -/
theorem C68_lookahead (p : Pat ι β) (i j : Nat) :
    (Passes G none d (Surface.not p) i j ↔ j = i ∧ ∃ k, Balks G none d p i k) ∧
    (Passes G none d (Surface.peek p) i j ↔ j = i ∧ ∃ k, Passes G none d p i k) ∧
    (∀ b, Passes G none d (Surface.assert p b) i j ↔
      j = i ∧ if b then ∃ k, Passes G none d p i k else ∃ k, Balks G none d p i k) := by
  have key : ∀ b, Passes G none d (.assert p b) i j ↔
      j = i ∧ if b then ∃ k, Passes G none d p i k else ∃ k, Balks G none d p i k := by
    intro b
    unfold Passes Balks
    simp only [runs_plain, (C11_assert (G := G) (pol := none) (d := d) p b i).1]
    unfold Matches Fails
    cases b <;> simp only [runs_plain] <;> grind
  refine ⟨(key false).trans (by simp), (key true).trans (by simp), key⟩

example : Passes (β := Nat) G0 none ['a', 'b'] (.thn (Surface.not (.lit ['b'])) (.lit ['a'])) 0 1 :=
  ⟨⟨0, 1⟩, 6, by decide⟩

/-- **C68 (values).** `map` applies the function, `try_map` the fallible function,
`_0`/`_1` keep the first/second value of a pair, `_eq` keeps pairs of equal values. -/
theorem C68_values (p : Pat ι β) (f : Val β → Out (Val β)) (g : Val β → Val β)
    (eq : Val β → Val β → Bool) (i j : Nat) (v : Val β) :
    (Gives G H pol d (tryMap p f) i v j ↔ ∃ w, f w = .ok v ∧ Gives G H pol d p i w j) ∧
    (Gives G H pol d (Surface.map p g) i v j ↔ ∃ w, v = g w ∧ Gives G H pol d p i w j) ∧
    (Gives G H pol d (_0 p) i v j ↔ ∃ w, Gives G H pol d p i (.pair v w) j) ∧
    (Gives G H pol d (_1 p) i v j ↔ ∃ w, Gives G H pol d p i (.pair w v) j) ∧
    (Gives G H pol d (_eq eq p) i v j ↔
      ∃ x y, v = .pair x y ∧ eq x y = true ∧ Gives G H pol d p i (.pair x y) j) := by
  have key : ∀ f v, Gives G H pol d (tryMap p f) i v j ↔ ∃ w, f w = .ok v ∧ Gives G H pol d p i w j := by
    intro f v
    unfold Gives tryMap
    simp only [con_iff, conL_map, caseC_some, caseT_some]
    grind
  refine ⟨key f v, ?_, ?_, ?_, ?_⟩
  · refine (key _ v).trans ?_
    simp only [funcMapper, Out.ok.injEq]; grind
  · refine (key _ v).trans ?_
    constructor
    · rintro ⟨w, h, hw⟩
      cases w <;> simp [onPair, select0] at h
      subst h; exact ⟨_, hw⟩
    · rintro ⟨w, h⟩; exact ⟨_, rfl, h⟩
  · refine (key _ v).trans ?_
    constructor
    · rintro ⟨w, h, hw⟩
      cases w <;> simp [onPair, select1] at h
      subst h; exact ⟨_, hw⟩
    · rintro ⟨w, h⟩; exact ⟨_, rfl, h⟩
  · refine (key _ v).trans ?_
    constructor
    · rintro ⟨w, h, hw⟩
      cases w <;> simp only [onPair, reduceCtorEq] at h
      rename_i x y
      unfold selectEq at h
      by_cases hxy : eq x y = true
      · simp [hxy] at h; subst h; exact ⟨x, y, rfl, hxy, hw⟩
      · simp [hxy] at h
    · rintro ⟨x, y, rfl, h, hw⟩; exact ⟨_, by simp [onPair, selectEq, h], hw⟩

example : Gives G0 whereH none ['a', 'b'] (_1 (then_ (.lit ['a']) (.lit ['b']))) 0 (.base (1, 1)) 2 :=
  ⟨5, by decide⟩

/-- **C68 (repeating).** `p.repeat(r)`: as many as possible, the number in `r`;
`p.collect()`: at least one unless `at_least` says otherwise. -/
theorem C68_repeat (p : Pat ι β) (r : RangeExpr) (n : Nat) (i j : Nat) (v : Val β) :
    (Gives G H pol d (Repeat.new p r).toPat i v j ↔ ∃ vs k, v = Val.list vs ∧ InRow G H pol d p i vs k ∧
      r.toCRange.lo.allowsFrom vs.length ∧ r.toCRange.hi.allowsUpTo vs.length ∧
      ((j = k ∧ ¬ r.toCRange.hi.allowsUpTo (vs.length + 1)) ∨
        (r.toCRange.hi.allowsUpTo (vs.length + 1) ∧ Refuses G H pol d p k j))) ∧
    (Gives G H pol d (Collect.new p).toPat i v j ↔ ∃ vs k, v = Val.list vs ∧ vs ≠ [] ∧
      InRow G H pol d p i vs k ∧ Refuses G H pol d p k j) ∧
    (Gives G H pol d ((Collect.new p).atLeast n).toPat i v j ↔ ∃ vs k, v = Val.list vs ∧ n ≤ vs.length ∧
      InRow G H pol d p i vs k ∧ Refuses G H pol d p k j) := by
  simp only [inRow_iff]
  unfold Gives Refuses Repeat.toPat Repeat.new Collect.toPat Collect.new Collect.atLeast
  simp only []
  rw [(C13_repeat_construct p r.toCRange () i).1, (C15_collect_construct p 1 () i).1,
    (C15_collect_construct p n () i).1]
  refine ⟨by grind, ?_, by grind⟩
  have : ∀ vs : List (Val β), 1 ≤ vs.length ↔ vs ≠ [] := by intro vs; cases vs <;> simp
  simp only [this]
  grind

example : Gives G0 whereH none ['a', 'a', 'b'] (Repeat.new (.lit ['a']) (.rangeFrom 1)).toPat 0
    (.list [.base (0, 1), .base (1, 1)]) 2 := ⟨6, by decide⟩

/-- **C68 (separated lists).** `p.sep(s)`: a non-empty list; `at_least(n)`: of at
least `n` elements, possibly none for `n = 0`. -/
theorem C68_separated (p s : Pat ι β) (n : Nat) (i j : Nat) (v : Val β) :
    (Gives G H pol d (Separate.new p s).toPat i v j ↔
      ∃ vs, v = Val.list vs ∧ Listing G H pol d p s i vs j) ∧
    (Gives G H pol d ((Separate.new p s).atLeast n).toPat i v j ↔
      ∃ vs, v = Val.list vs ∧ n ≤ vs.length ∧
        (Listing G H pol d p s i vs j ∨ (vs = [] ∧ Refuses G H pol d p i j))) := by
  have key : ∀ n, Gives G H pol d ((Separate.new p s).atLeast n).toPat i v j ↔
      ∃ vs, v = Val.list vs ∧ n ≤ vs.length ∧
        (Listing G H pol d p s i vs j ∨ (vs = [] ∧ Refuses G H pol d p i j)) := by
    intro n
    simp only [listing_iff]
    unfold Gives Separate.toPat Separate.atLeast Separate.new
    simp only []
    rw [(C16_sep_construct p s true n () i).1]
    constructor
    · rintro ⟨vs, x, h, ⟨rfl, hn, rfl⟩ | ⟨y, rfl, _, hn, rfl⟩ | ⟨_, h', _⟩⟩
      · refine ⟨vs, rfl, hn, ?_⟩
        cases vs with
        | nil =>
          obtain ⟨_, _, hb, e, he⟩ := h
          cases hb
          exact .inr ⟨rfl, e, he⟩
        | cons w vs => exact .inl ⟨_, _, h, .inl ⟨rfl, by simp, rfl⟩⟩
      · exact ⟨_, rfl, by simpa using hn, .inl ⟨_, _, h, .inr ⟨y, rfl, rfl⟩⟩⟩
      · cases h'
    · rintro ⟨ws, rfl, hn, ⟨vs, x, h, ⟨rfl, _, rfl⟩ | ⟨y, rfl, rfl⟩⟩ | ⟨rfl, e, he⟩⟩
      · exact ⟨_, _, h, .inl ⟨rfl, hn, rfl⟩⟩
      · exact ⟨_, _, h, .inr (.inl ⟨y, rfl, rfl, by simpa using hn, rfl⟩)⟩
      · exact ⟨[], none, ⟨(), i, .nil _ _, e, he⟩, .inl ⟨rfl, hn, rfl⟩⟩
  refine ⟨(key 1).trans ?_, key n⟩
  constructor
  · rintro ⟨vs, rfl, hn, h | ⟨rfl, _⟩⟩
    · exact ⟨vs, rfl, h⟩
    · cases hn
  · rintro ⟨vs, rfl, h⟩
    refine ⟨vs, rfl, ?_, .inl h⟩
    cases h <;> simp

example : Gives G0 whereH none ['a', ',', 'a', ','] (Separate.new (.lit ['a']) (.lit [','])).toPat 0
    (.list [.base (0, 1), .base (2, 1)]) 4 := ⟨6, by decide⟩

theorem closed_iff {p s : Pat ι β} {vs i j} :
    Closed G H pol d p s i vs j ↔ BuiltSep G H pol d p s vs () i () j := by
  constructor
  · intro h
    induction h with
    | nil => exact .nil _ _
    | cons h1 h2 _ ih => obtain ⟨_, h2⟩ := h2; exact .cons h1 h2 ih
  · have : ∀ st st', BuiltSep G H pol d p s vs st i st' j → Closed G H pol d p s i vs j := by
      intro st st' h
      induction h with
      | nil => exact .nil
      | cons h1 h2 _ ih => exact .cons h1 ⟨_, h2⟩ ih
    exact this _ _

/-- **C68 (separators required).** `p.sep(s).with_skip(false)`: the elements that have
a separator behind them; a further element without one is read over, not returned. -/
theorem C68_separator_required (p s : Pat ι β) (n : Nat) (i j : Nat) (v : Val β) :
    Gives G H pol d (((Separate.new p s).withSkip false).atLeast n).toPat i v j ↔
      ∃ vs k, v = Val.list vs ∧ n ≤ vs.length ∧ Closed G H pol d p s i vs k ∧
        (Refuses G H pol d p k j ∨ ∃ w l, Gives G H pol d p k w l ∧ Balks G pol d s l j) := by
  simp only [closed_iff]
  unfold Gives Refuses Balks Separate.toPat Separate.atLeast Separate.withSkip Separate.new
  simp only []
  rw [(C16_sep_construct p s false n () i).1]
  constructor
  · rintro ⟨vs, x, ⟨_, k, h1, h2⟩, ⟨rfl, hn, rfl⟩ | ⟨y, rfl, h', _⟩ | ⟨hx, _, hn, rfl⟩⟩
    · exact ⟨vs, k, rfl, hn, h1, .inl h2⟩
    · cases h'
    · cases x with
      | none => exact absurd rfl hx
      | some w =>
        obtain ⟨l, e, h2, h3⟩ := h2
        exact ⟨vs, k, rfl, hn, h1, .inr ⟨w, l, h2, e, h3⟩⟩
  · rintro ⟨vs, k, rfl, hn, h1, h2 | ⟨w, l, h2, e, h3⟩⟩
    · exact ⟨vs, none, ⟨(), k, h1, h2⟩, .inl ⟨rfl, hn, rfl⟩⟩
    · exact ⟨vs, some w, ⟨(), k, h1, l, e, h2, h3⟩, .inr (.inr ⟨by simp, rfl, hn, rfl⟩)⟩

example : Gives G0 whereH none ['a', ',', 'a'] ((Separate.new (.lit ['a']) (.lit [','])).withSkip false).toPat 0
    (.list [.base (0, 1)]) 3 := ⟨6, by decide⟩

/-- **C68 (fixed size).** `p.repeat2::<M, N>()`: from `m` to `n` of them, in an array of
`n` places; `p.sep2::<_, M, N>(s)`: the list, of `m` to `n` elements, likewise. (What they
do with more than `n` is C14 and C17.) -/
theorem C68_fixed (p s : Pat ι β) (m n : Nat) (i j : Nat) (v : Val β) (ws : List (Val β)) :
    (Gives G H pol d (Surface.repeat2 p m n) i v j ↔ ∃ vs k,
      v = Val.list (vs.map .some ++ List.replicate (n - vs.length) .none) ∧ m ≤ vs.length ∧ vs.length ≤ n ∧
      InRow G H pol d p i vs k ∧ Refuses G H pol d p k j) ∧
    (Listing G H pol d p s i ws j → ws.length ≤ n → (Gives G H pol d (Separate2.new p s m n).toPat i v j ↔
      m ≤ ws.length ∧ v = Val.list (ws.map .some ++ List.replicate (n - ws.length) .none))) ∧
    (∀ x, ((Separate2.new p s m n).withSkip x).toPat = .sep2 p s x m n) := by
  refine ⟨?_, fun hl hn => ?_, fun _ => rfl⟩
  · simp only [inRow_iff]
    unfold Gives Refuses Surface.repeat2
    rw [(C14_repeat2_construct_partial p m n () i).1]
    grind
  · obtain ⟨vs, x, hb, hw⟩ := listing_iff.mp hl
    have hk : kept true vs x = ws := by
      rcases hw with ⟨rfl, _, rfl⟩ | ⟨w, rfl, rfl⟩ <;> simp [kept]
    have := C17_sep2_construct_partial p s true m n () () i j vs x hb (by rw [hk]; exact hn) (.ok v () j)
    rw [hk] at this
    refine this.trans ?_
    split
    · next h => simp [h]
    · next h => simp [h]

example : Gives G0 whereH none ['a', 'a', 'b'] (Surface.repeat2 (.lit ['a']) 1 3) 0
    (.list [.some (.base (0, 1)), .some (.base (1, 1)), .none]) 2 := ⟨6, by decide⟩
example : Gives G0 whereH none ['a', ',', 'a'] (Separate2.new (.lit ['a']) (.lit [',']) 1 3).toPat 0
    (.list [.some (.base (0, 1)), .some (.base (2, 1)), .none]) 3 := ⟨6, by decide⟩

/-- **C68 (`sep_collect`).** The same lists as `sep`, when no further element follows the
last one without a separator (otherwise C18). -/
theorem C68_sep_collect (p s : Pat ι β) (n : Nat) (i j : Nat) (ws : List (Val β))
    (hl : Listing G H pol d p s i ws j) (he : Refuses G H pol d p j j) (v : Val β) :
    (Gives G H pol d (SepCollect.new p s).toPat i v j ↔ v = Val.list ws) ∧
    (Gives G H pol d ((SepCollect.new p s).atLeast n).toPat i v j ↔ n ≤ ws.length ∧ v = Val.list ws) ∧
    (∀ x, ((SepCollect.new p s).withSkip x).toPat = .sepCollect p s x 1) := by
  have key : ∀ n, Gives G H pol d ((SepCollect.new p s).atLeast n).toPat i v j ↔ n ≤ ws.length ∧ v = Val.list ws := by
    intro n
    obtain ⟨vs, x, hb, hw⟩ := listing_iff.mp hl
    have h1 := (C18_sepCollect_partial p s true n () () i j vs x hb (fun _ _ => he)).1 v () j
    refine h1.trans ?_
    refine ((C68_separated p s n i j v).2).trans ?_
    constructor
    · rintro ⟨vs', rfl, hn, h⟩
      have : vs' = ws := by
        have hw : Gives G H pol d (Separate.new p s).toPat i (Val.list ws) j :=
          ((C68_separated p s n i j _).1).mpr ⟨ws, rfl, hl⟩
        rcases h with h | ⟨rfl, e, h⟩
        · have hv : Gives G H pol d (Separate.new p s).toPat i (Val.list vs') j :=
            ((C68_separated p s n i j _).1).mpr ⟨vs', rfl, h⟩
          have := Constructs.uniq hv hw
          injection this with this
          exact Attr.list_inj this
        · cases hl with
          | last h' _ => have := Constructs.uniq h h'; cases this
          | trailing h' _ _ => have := Constructs.uniq h h'; cases this
          | more h' _ _ => have := Constructs.uniq h h'; cases this
      subst this
      exact ⟨hn, rfl⟩
    · rintro ⟨hn, rfl⟩
      exact ⟨ws, rfl, hn, .inl hl⟩
  refine ⟨(key 1).trans ⟨fun h => h.2, fun h => ⟨?_, h⟩⟩, key n, fun _ => rfl⟩
  cases hl <;> simp

example : Gives G0 whereH none ['a', ',', 'a', ';'] (SepCollect.new (.lit ['a']) (.lit [','])).toPat 0
    (.list [.base (0, 1), .base (2, 1)]) 3 := ⟨6, by decide⟩

/-- **C68 (`pat`).** `p.pat()` builds what the handler makes of the matched text, not
what `p` would build. -/
theorem C68_pat (p : Pat ι β) (i j : Nat) (v : Val β) :
    Gives G H pol d (Surface.pat p) i v j ↔
      ∃ s b, Runs G pol d p i (.ok s j) ∧ H d j s () = (.ok b, ()) ∧ v = .base b :=
  (C52_pat_construct p () i).1 v () j

example : Gives G0 whereH none ['a', 'b'] (Surface.pat (then_ (.lit ['a']) (.lit ['b']))) 0 (.base (0, 2)) 2 :=
  ⟨6, by decide⟩

/-- **C68 (matching).** The same order of the parts when only matching, on a plain
context and for parts whose match is the region they move over. -/
theorem C68_sequence_match (p q a b : Pat ι β) (hp : All G Tidy p) (hq : All G Tidy q) (ha : All G Tidy a)
    (hb : All G Tidy b) (i j : Nat) :
    (Passes G none d (then_ p q) i j ↔ ∃ k, Passes G none d p i k ∧ Passes G none d q k j) ∧
    (Passes G none d (prefix_ p a) i j ↔ ∃ k, Passes G none d a i k ∧ Passes G none d p k j) ∧
    (Passes G none d (suffix p a) i j ↔ ∃ k, Passes G none d p i k ∧ Passes G none d a k j) ∧
    (Passes G none d (Surface.enclose p a b) i j ↔
      ∃ k l, Passes G none d a i k ∧ Passes G none d p k l ∧ Passes G none d b l j) ∧
    (Passes G none d (Surface.sepOnce p a q) i j ↔
      ∃ k l, Passes G none d p i k ∧ Passes G none d a k l ∧ Passes G none d q l j) := by
  have two : ∀ {x y : Pat ι β}, All G Tidy x → All G Tidy y → ∀ i j,
      (Passes G none d (.thn x y) i j ↔ ∃ k, Passes G none d x i k ∧ Passes G none d y k j) := by
    intro x y hx hy i j
    unfold Passes
    simp only [(C08_then_plain x y hx hy i).1]
    grind
  have swap : ∀ {x y : Pat ι β}, Equiv G x y → ∀ i j, (Passes G none d x i j ↔ Passes G none d y i j) :=
    fun h i j => exists_congr fun _ => h d i _
  have pair : ∀ {x y : Pat ι β}, All G Tidy x → All G Tidy y → All G Tidy (.thn x y) := fun hx hy =>
    All.intro (show Tidy (.thn _ _) from trivial) fun z hz => by
      rcases hz with rfl | rfl <;> assumption
  have hd := fun x y z => C45_delimiters_are_then (G := G) (x : Pat ι β) y z
  refine ⟨two hp hq i j, (swap (hd a p p).1 i j).trans (two ha hp i j),
    (swap (hd p a a).2.1 i j).trans (two hp ha i j),
    (swap ((hd a p b).2.2 ha hp hb).1 i j).trans ?_, (swap ((hd p a q).2.2 hp ha hq).2 i j).trans ?_⟩
  · rw [two ha (pair hp hb) i j]
    simp only [two hp hb]; grind
  · rw [two hp (pair ha hq) i j]
    simp only [two ha hq]; grind

theorem attempts_none {o : Nat} {items : List (Pat ι β × Option (Val β))} {c : Nat} :
    (∃ c', Attempts G H pol d o items (items.map fun _ => none) () c () c') ↔
      ∀ x ∈ items, ∃ k, Refuses G H pol d x.1 o k := by
  induction items generalizing c with
  | nil => exact ⟨fun _ => by simp, fun _ => ⟨c, .nil _ _⟩⟩
  | cons x items ih =>
    constructor
    · rintro ⟨c', h⟩
      cases h with
      | err h1 h2 =>
        intro y hy
        rcases List.mem_cons.mp hy with rfl | hy
        · exact ⟨_, _, h1⟩
        · exact ih.mp ⟨_, h2⟩ y hy
    · intro h
      obtain ⟨k, e, hk⟩ := h x (by simp)
      obtain ⟨c', h'⟩ := ih (c := k) |>.mpr fun y hy => h y (by simp [hy])
      exact ⟨c', .err hk h'⟩

theorem choice_gives {e : Error} {items : List (Pat ι β × Option (Val β))} {i v j} :
    Gives G H pol d (.choice e items) i v j ↔ ∃ before it after w, items = before ++ it :: after ∧
      (∀ x ∈ before, ∃ k, Refuses G H pol d x.1 i k) ∧ Gives G H pol d it.1 i w j ∧ v = altValue it.2 w := by
  unfold Gives
  rw [(C06_choice_construct e items () i).1]
  constructor
  · rintro ⟨b, it, a, w, _, c, h1, h2, h3, h4⟩
    exact ⟨b, it, a, w, h1, attempts_none.mp ⟨c, h2⟩, h3, h4⟩
  · rintro ⟨b, it, a, w, h1, h2, h3, h4⟩
    obtain ⟨c, hc⟩ := attempts_none (c := i) |>.mpr h2
    exact ⟨b, it, a, w, (), c, h1, hc, h3, h4⟩

/-- **C68 (lists of alternatives).** `array`, `slice`, `vector`: the value of the
first alternative that does not fail; `pair_array`, `pair_slice`, `pair_vector`: this
value together with what the alternative is paired with.  If all fail, the error names
the container and nothing is consumed. -/
theorem C68_first (h : Holder) (l : List (Pat ι β)) (m : List (Pat ι β × Val β)) (i j : Nat) (v : Val β) :
    (Gives G H pol d (Container.plain h l).toPat i v j ↔ ∃ before p after, l = before ++ p :: after ∧
      (∀ x ∈ before, ∃ k, Refuses G H pol d x i k) ∧ Gives G H pol d p i v j) ∧
    (Gives G H pol d (Container.pairs h m).toPat i v j ↔ ∃ before p t after w, m = before ++ (p, t) :: after ∧
      (∀ x ∈ before, ∃ k, Refuses G H pol d x.1 i k) ∧ Gives G H pol d p i w j ∧ v = .pair w t) ∧
    (∀ e, Constructs G H pol d (Container.plain h l).toPat () i (.err e () j) ↔
      e = h.error ∧ j = i ∧ ∀ x ∈ l, ∃ k, Refuses G H pol d x i k) ∧
    (∀ e, Constructs G H pol d (Container.pairs h m).toPat () i (.err e () j) ↔
      e = h.error ∧ j = i ∧ ∀ x ∈ m, ∃ k, Refuses G H pol d x.1 i k) := by
  simp only [Container.toPat, Container.plain, Container.pairs, Bool.false_eq_true, if_false, choice_gives,
    (C06_choice_construct _ _ () i).2.1, attempts_none]
  refine ⟨?_, ?_, fun e => by simp, fun e => and_congr Iff.rfl (and_congr Iff.rfl ?_)⟩
  rotate_left 2
  · rw [List.forall_mem_map]
  · constructor
    · rintro ⟨b, it, a, w, h1, h2, h3, h4⟩
      obtain ⟨l1, l2, rfl, rfl, h5⟩ := List.map_eq_append_iff.mp h1
      obtain ⟨p, l3, rfl, rfl, rfl⟩ := List.map_eq_cons_iff.mp h5
      refine ⟨l1, p, l3, rfl, fun x hx => h2 (x, none) (List.mem_map.mpr ⟨x, hx, rfl⟩), ?_⟩
      simp only [altValue] at h4
      exact h4 ▸ h3
    · rintro ⟨b, p, a, rfl, h2, h3⟩
      refine ⟨b.map fun p => (p, none), (p, none), a.map fun p => (p, none), v, by simp, ?_, h3, rfl⟩
      intro x hx
      obtain ⟨y, hy, rfl⟩ := List.mem_map.mp hx
      exact h2 y hy
  · constructor
    · rintro ⟨b, it, a, w, h1, h2, h3, h4⟩
      obtain ⟨l1, l2, rfl, rfl, h5⟩ := List.map_eq_append_iff.mp h1
      obtain ⟨⟨p, t⟩, l3, rfl, rfl, rfl⟩ := List.map_eq_cons_iff.mp h5
      exact ⟨l1, p, t, l3, w, rfl, fun x hx => h2 (x.1, some x.2) (List.mem_map.mpr ⟨x, hx, rfl⟩), h3, h4⟩
    · rintro ⟨b, p, t, a, w, rfl, h2, h3, h4⟩
      refine ⟨b.map fun x => (x.1, some x.2), (p, some t), a.map fun x => (x.1, some x.2), w, by simp, ?_,
        h3, h4⟩
      intro x hx
      obtain ⟨y, hy, rfl⟩ := List.mem_map.mp hx
      exact h2 y hy

example : Gives G0 whereH none ['a', 'b'] (Container.pairs .pairSlice
    [(.lit ['b'], .base (7, 7)), (.lit ['a'], .base (8, 8)), (.lit ['a', 'b'], .base (9, 9))]).toPat 0
    (.pair (.base (0, 1)) (.base (8, 8))) 1 := ⟨6, by decide⟩

/-- **C68 (the error names the container).** -/
theorem C68_error_names (l : List (Pat ι β)) (m : List (Pat ι β × Val β)) (i : Nat)
    (hl : ∀ x ∈ l, ∃ k, Refuses G H pol d x i k) (hm : ∀ x ∈ m, ∃ k, Refuses G H pol d x.1 i k) :
    (Constructs G H pol d (Container.plain .array l).toPat () i (.err .array () i) ∧
      Constructs G H pol d (Container.plain .slice l).toPat () i (.err .slice () i) ∧
      Constructs G H pol d (Container.plain .vector l).toPat () i (.err .vector () i)) ∧
    (Constructs G H pol d (Container.pairs .pairArray m).toPat () i (.err .pairArray () i) ∧
      Constructs G H pol d (Container.pairs .pairSlice m).toPat () i (.err .pairSlice () i) ∧
      Constructs G H pol d (Container.pairs .pairVector m).toPat () i (.err .pairVector () i)) := by
  have h1 : ∀ h : Holder, Constructs G H pol d (Container.plain h l).toPat () i (.err h.error () i) := fun h =>
    ((C68_first h l m i i .none).2.2.1 _).mpr ⟨rfl, rfl, hl⟩
  have h2 : ∀ h : Holder, Constructs G H pol d (Container.pairs h m).toPat () i (.err h.error () i) := fun h =>
    ((C68_first h l m i i .none).2.2.2 _).mpr ⟨rfl, rfl, hm⟩
  exact ⟨⟨h1 .array, h1 .slice, h1 .vector⟩, h2 .pairArray, h2 .pairSlice, h2 .pairVector⟩

example : Refuses (β := Nat × Nat) G0 whereH none ['a'] (.lit ['b']) 0 0 := ⟨.literal, 6, by decide⟩

/-- What an attempt of `Attempts` came to. -/
theorem attempts_out {o : Nat} {items : List (Pat ι β × Option (Val β))} {outs st c st' c'}
    (h : Attempts G H pol d o items outs st c st' c') {before after} {x : Option (Val β × Nat)}
    (ho : outs = before ++ x :: after) :
    ∃ l it r, items = l ++ it :: r ∧ l.length = before.length ∧
      (∀ w k, x = some (w, k) → ∃ w', w = altValue it.2 w' ∧ Gives G H pol d it.1 o w' k) := by
  induction h generalizing before with
  | nil => simp at ho
  | ok h1 h2 ih =>
    cases before with
    | nil =>
      simp only [List.nil_append, List.cons.injEq] at ho
      obtain ⟨rfl, _⟩ := ho
      refine ⟨[], _, _, rfl, rfl, fun w k h => ?_⟩
      cases h
      exact ⟨_, rfl, h1⟩
    | cons y before =>
      simp only [List.cons_append, List.cons.injEq] at ho
      obtain ⟨l, it, r, rfl, hl, h⟩ := ih ho.2
      exact ⟨_ :: l, it, r, rfl, by simp [hl], h⟩
  | err h1 h2 ih =>
    cases before with
    | nil =>
      simp only [List.nil_append, List.cons.injEq] at ho
      obtain ⟨rfl, _⟩ := ho
      exact ⟨[], _, _, rfl, rfl, fun w k h => nomatch h⟩
    | cons y before =>
      simp only [List.cons_append, List.cons.injEq] at ho
      obtain ⟨l, it, r, rfl, hl, h⟩ := ih ho.2
      exact ⟨_ :: l, it, r, rfl, by simp [hl], h⟩

/-- Every alternative that yields a value is among the outcomes, in order. -/
theorem attempts_mem {o : Nat} {items : List (Pat ι β × Option (Val β))} {outs st c st' c'}
    (h : Attempts G H pol d o items outs st c st' c') {l it r w k} (hi : items = l ++ it :: r)
    (hg : Gives G H pol d it.1 o w k) :
    ∃ before after, outs = before ++ some (altValue it.2 w, k) :: after ∧ before.length = l.length := by
  induction h generalizing l with
  | nil => simp at hi
  | ok h1 h2 ih =>
    cases l with
    | nil =>
      simp only [List.nil_append, List.cons.injEq] at hi
      obtain ⟨rfl, rfl⟩ := hi
      have := Constructs.unique h1 hg
      injection this with a b c
      subst a; subst c
      exact ⟨[], _, rfl, rfl⟩
    | cons y l =>
      simp only [List.cons_append, List.cons.injEq] at hi
      obtain ⟨b, a, rfl, hb⟩ := ih hi.2
      exact ⟨_ :: b, a, rfl, by simp [hb]⟩
  | err h1 h2 ih =>
    cases l with
    | nil =>
      simp only [List.nil_append, List.cons.injEq] at hi
      obtain ⟨rfl, rfl⟩ := hi
      have := Constructs.unique h1 hg
      cases this
    | cons y l =>
      simp only [List.cons_append, List.cons.injEq] at hi
      obtain ⟨b, a, rfl, hb⟩ := ih hi.2
      exact ⟨_ :: b, a, rfl, by simp [hb]⟩

theorem ltm_gives {e : Error} {items : List (Pat ι β × Option (Val β))} {i v j}
    (h : Gives G H pol d (.ltm e items) i v j) : ∃ before it after w k, items = before ++ it :: after ∧
      v = altValue it.2 w ∧ Gives G H pol d it.1 i w k ∧ i < k ∧
      (∀ x ∈ before, ∀ w' k', Gives G H pol d x.1 i w' k' → k' < k) ∧
      (∀ x ∈ after, ∀ w' k', Gives G H pol d x.1 i w' k' → k' ≤ k) := by
  obtain ⟨outs, ha, b, a, k, rfl, hk, hb, hr⟩ := ((C07_ltm_construct e items () i).1 v () j).mp h
  obtain ⟨l, it, r, rfl, hl, hw⟩ := attempts_out ha rfl
  obtain ⟨w, hv, hg⟩ := hw v k rfl
  refine ⟨l, it, r, w, k, rfl, hv, hg, hk, fun x hx w' k' hx' => ?_, fun x hx w' k' hx' => ?_⟩
  · obtain ⟨l1, l2, rfl⟩ := List.append_of_mem hx
    obtain ⟨b', a', he, hlen⟩ := attempts_mem ha (l := l1) (it := x) (r := l2 ++ it :: r) (by simp) hx'
    refine hb (altValue x.2 w') k' ?_
    have hlt : l1.length < b.length := by rw [← hl]; simp
    have h1 : (b ++ some (v, k) :: a)[l1.length]? = b[l1.length]? := List.getElem?_append_left hlt
    have h2 : (b' ++ some (altValue x.2 w', k') :: a')[l1.length]? = some (some (altValue x.2 w', k')) := by
      rw [← hlen, List.getElem?_append_right (Nat.le_refl _)]; simp
    rw [he, h2] at h1
    exact List.mem_of_getElem? h1.symm
  · obtain ⟨l1, l2, rfl⟩ := List.append_of_mem hx
    obtain ⟨b', a', he, hlen⟩ := attempts_mem ha (l := l ++ it :: l1) (it := x) (r := l2) (by simp) hx'
    refine hr (altValue x.2 w') k' ?_
    have hlen : b'.length = b.length + 1 + l1.length := by rw [hlen]; simp [hl]; omega
    have h2 : (b' ++ some (altValue x.2 w', k') :: a')[b'.length]? = some (some (altValue x.2 w', k')) := by
      rw [List.getElem?_append_right (Nat.le_refl _)]; simp
    rw [← he, hlen, List.getElem?_append_right (by omega),
      show b.length + 1 + l1.length - b.length = l1.length + 1 by omega, List.getElem?_cons_succ] at h2
    exact List.mem_of_getElem? h2

/-- **C68 (longest alternative).** `array_ltm`, `slice_ltm`, `vector_ltm` and their
pair forms, or `with_longest(true)`: the value of the alternative reaching furthest, the
first of them if there are several.  (Where reading goes on afterwards is another
matter: `C07_ltm_construct`.) -/
theorem C68_furthest (h : Holder) (l : List (Pat ι β)) (m : List (Pat ι β × Val β)) (i j : Nat) (v : Val β) :
    (Gives G H pol d (Container.plainLtm h l).toPat i v j → ∃ before p after k, l = before ++ p :: after ∧
      Gives G H pol d p i v k ∧ i < k ∧
      (∀ x ∈ before, ∀ w k', Gives G H pol d x i w k' → k' < k) ∧
      (∀ x ∈ after, ∀ w k', Gives G H pol d x i w k' → k' ≤ k)) ∧
    (Gives G H pol d (Container.pairsLtm h m).toPat i v j → ∃ before p t after w k,
      m = before ++ (p, t) :: after ∧ v = .pair w t ∧ Gives G H pol d p i w k ∧ i < k ∧
      (∀ x ∈ before, ∀ w k', Gives G H pol d x.1 i w k' → k' < k) ∧
      (∀ x ∈ after, ∀ w k', Gives G H pol d x.1 i w k' → k' ≤ k)) := by
  simp only [Container.toPat, Container.plainLtm, Container.pairsLtm, if_true]
  constructor
  · intro hg
    obtain ⟨b, it, a, w, k, h1, h2, h3, h4, h5, h6⟩ := ltm_gives hg
    obtain ⟨l1, l2, rfl, rfl, h7⟩ := List.map_eq_append_iff.mp h1
    obtain ⟨p, l3, rfl, rfl, rfl⟩ := List.map_eq_cons_iff.mp h7
    refine ⟨l1, p, l3, k, rfl, (show v = w from h2) ▸ h3, h4, fun x hx => ?_, fun x hx => ?_⟩
    · exact h5 (x, none) (List.mem_map.mpr ⟨x, hx, rfl⟩)
    · exact h6 (x, none) (List.mem_map.mpr ⟨x, hx, rfl⟩)
  · intro hg
    obtain ⟨b, it, a, w, k, h1, h2, h3, h4, h5, h6⟩ := ltm_gives hg
    obtain ⟨l1, l2, rfl, rfl, h7⟩ := List.map_eq_append_iff.mp h1
    obtain ⟨⟨p, t⟩, l3, rfl, rfl, rfl⟩ := List.map_eq_cons_iff.mp h7
    refine ⟨l1, p, t, l3, w, k, rfl, h2, h3, h4, fun x hx => ?_, fun x hx => ?_⟩
    · exact h5 (x.1, some x.2) (List.mem_map.mpr ⟨x, hx, rfl⟩)
    · exact h6 (x.1, some x.2) (List.mem_map.mpr ⟨x, hx, rfl⟩)

example : Gives G0 whereH none ['a', 'b'] (Container.plainLtm .vector [.lit ['a'], .lit ['a', 'b']]).toPat 0
    (.base (0, 2)) 2 := ⟨6, by decide⟩

/-- **C68 (adjusting).** Setting the flag of a container gives the other kind; the
last setting of a parameter counts; settings of different parameters commute; the
capacity is not part of what is matched. -/
theorem C68_settings (h : Holder) (l : List (Pat ι β)) (m : List (Pat ι β × Val β)) (p s : Pat ι β)
    (r r' : RangeExpr) (a b : Nat) (c : Bool) :
    (Container.plain h l).withLongest true = Container.plainLtm h l ∧
    (Container.plainLtm h l).withLongest false = Container.plain h l ∧
    (Container.pairs h m).withLongest true = Container.pairsLtm h m ∧
    (Container.pairsLtm h m).withLongest false = Container.pairs h m ∧
    (∀ x : Separate ι β, (x.atLeast a).atLeast b = x.atLeast b ∧
      (x.atLeast a).withSkip c = (x.withSkip c).atLeast a ∧ (x.withCapacity b).toPat = x.toPat) ∧
    (∀ x : SepCollect ι β, (x.atLeast a).atLeast b = x.atLeast b ∧
      (x.atLeast a).withSkip c = (x.withSkip c).atLeast a) ∧
    ((Repeat.new p r).withRange r').toPat = (Repeat.new p r').toPat ∧
    ((Repeat.new p r).withPat s).toPat = (Repeat.new s r).toPat ∧
    ((Repeat.new p r).withCapacity a).toPat = (Repeat.new p r).toPat := by
  refine ⟨rfl, rfl, rfl, rfl, fun x => ⟨rfl, rfl, rfl⟩, fun x => ⟨rfl, rfl⟩, rfl, rfl, rfl⟩

/-! ## C69 -/

/-- **C69, as far as it holds.** Space set aside for the values never changes the
result, as long as the memory could hold it: capacity and minimum of a separated list,
capacity (initially the least number) of a repetition. -/
theorem C69_room_partial {σ : Type} (H : Handler ι β σ) (room : Nat) (x : Separate ι β) (y : Repeat ι β)
    (n : Nat) (st : σ) (o : Nat) :
    (x.capacity ≤ room → x.min ≤ room → x.construct room G H n pol d st o = con G H n pol d x.toPat st o) ∧
    (∀ c, c ≤ room → x.min ≤ room → x.capacity ≤ room →
      (x.withCapacity c).construct room G H n pol d st o = x.construct room G H n pol d st o) ∧
    (y.capacity ≤ room → y.construct room G H n pol d st o = con G H n pol d y.toPat st o) ∧
    (∀ p r, (∃ m, m ≤ room ∧ r.toCRange.lo.allowsFrom m) →
      (Repeat.new p r).construct room G H n pol d st o = con G H n pol d (.rep p r.toCRange) st o) ∧
    (∀ c, c ≤ room → y.capacity ≤ room →
      (y.withCapacity c).construct room G H n pol d st o = y.construct room G H n pol d st o) := by
  have hx : ∀ x : Separate ι β, x.capacity ≤ room → x.min ≤ room →
      x.construct room G H n pol d st o = con G H n pol d x.toPat st o := by
    intro x h1 h2
    unfold Separate.construct
    rw [if_pos (Nat.max_le.mpr ⟨h1, h2⟩)]
  have hy : ∀ y : Repeat ι β, y.capacity ≤ room →
      y.construct room G H n pol d st o = con G H n pol d y.toPat st o := by
    intro y h
    unfold Repeat.construct
    rw [if_pos h]
  refine ⟨hx x, fun c hc h1 h2 => ?_, hy y, fun p r hr => ?_, fun c hc h => ?_⟩
  · rw [hx (x.withCapacity c) hc h1, hx x h2 h1]; rfl
  · refine hy (Repeat.new p r) ?_
    unfold Repeat.new Repeat.guessCapacity
    simp only []
    generalize r.toCRange.lo = b at hr
    refine Nat.max_le.mpr ⟨?_, Nat.zero_le _⟩
    cases b with
    | incl v =>
      obtain ⟨m, hm, h⟩ := hr
      exact Nat.le_trans h hm
    | excl v =>
      obtain ⟨m, hm, h⟩ := hr
      exact Nat.le_trans (Nat.le_of_lt h) hm
    | unb => exact Nat.zero_le _
  · rw [hy (y.withCapacity c) hc, hy y h]; rfl

example : (Repeat.new (.lit ['a']) (.rangeFrom 2)).construct 10 G0 whereH 9 none ['a', 'a'] () 0 =
    some (.ok (.list [.base (0, 1), .base (1, 1)]) () 2) := by decide

/-- **C69 is not true in general.** Whatever fits into memory, asking for more
(`p.sep(s).at_least(n)`, `p.repeat(n..)`) panics on every input, whatever the parts are,
when constructing.  Matching with the same pattern does fail as it should, say where `p`
fails. -/
theorem C69_room_counterexample {σ : Type} (H : Handler ι β σ) (room n : Nat) (hn : room < n) (p s : Pat ι β)
    (d : List ι) (o : Nat) :
    (∀ fuel st, ((Separate.new p s).atLeast n).construct room G H fuel pol d st o = some .panic ∧
      (Repeat.new p (.rangeFrom n)).construct room G H fuel pol d st o = some .panic) ∧
    ((∃ k, Balks G none d p o k) →
      Runs G none d ((Separate.new p s).atLeast n).toPat o (.err .separate o) ∧
      Runs G none d (Repeat.new p (.rangeFrom n)).toPat o (.err .repeat_ o)) := by
  refine ⟨fun fuel st => ⟨?_, ?_⟩, ?_⟩
  · unfold Separate.construct Separate.new Separate.atLeast
    rw [if_neg]
    intro h
    exact absurd (Nat.le_trans (Nat.le_max_right _ _) h) (Nat.not_le.mpr hn)
  · unfold Repeat.construct Repeat.new Repeat.guessCapacity
    rw [if_neg]
    intro h
    exact absurd (Nat.le_trans (Nat.le_max_left _ _) h) (Nat.not_le.mpr hn)
  · rintro ⟨k, e, h⟩
    refine ⟨runs_plain.mpr ?_, runs_plain.mpr ?_⟩
    · refine ((C16_sep p s true n o).2 .separate o).mpr
        ⟨rfl, rfl, 0, _, none, k, ⟨o, .zero .., e, h⟩, .inl ⟨rfl, by omega⟩⟩
    · refine ((C13_repeat p _ o).2.1 .repeat_ o).mpr
        ⟨rfl, rfl, 0, _, o, .zero .., .inl rfl, fun ⟨h1, _⟩ => ?_, .inr ⟨e, k, h⟩⟩
      have : n ≤ 0 := h1
      omega

/-- Nothing is there, a billion billions are asked for: a panic instead of an error. -/
example : ((Separate.new (.lit ['a']) (.lit [','])).atLeast (10 ^ 18)).construct (2 ^ 59) G0 whereH 9 none [] () 0 =
    some .panic := (C69_room_counterexample (β := Nat × Nat) whereH (2 ^ 59) (10 ^ 18) (by decide) _ _ [] 0).1 9 () |>.1

end Neure
