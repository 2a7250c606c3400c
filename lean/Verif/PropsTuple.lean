import Verif.Tuple
import Verif.PropsChat
/-!
# C106: the pair with an optional second part of the documentation

The example of `if_then` (`src/ctor/then.rs:305-313`) reads exactly `(abc)` and `(abc, cde)`, whatever the words and the white
space behind the comma are.
-/

namespace Neure.Tuple

set_option linter.unusedSectionVars false
set_option linter.unusedSimpArgs false

open Demo Chat

variable {G : Rules Char (List Char)}

/-! ## Specification -/

/-- One or more letters. -/
def Word (a : List Char) : Prop := a ≠ [] ∧ ∀ c ∈ a, c ∈ Chars.lower ++ Chars.upper

/-- A word in parentheses, or two with a comma, and perhaps white space behind the comma. -/
inductive Form : List Char → List Char → Option (List Char) → Prop
  | one {a} : Word a → Form ('(' :: a ++ [')']) a none
  | two {a w b} : Word a → (∀ c ∈ w, c ∈ Chars.unicodeBlanks) → Word b →
      Form ('(' :: a ++ [','] ++ w ++ b ++ [')']) a (some b)

/-- The value `(&str, Option<&str>)`. -/
def value (a : List Char) : Option (List Char) → Val (List Char)
  | none => .pair (.base a) .none
  | some b => .pair (.base a) (.some (.base b))

/-! ## The parts -/

theorem reads_ifThen {a t b : Pat Char (List Char)} {A T B} (ha : Reads G a A) (ht : Passes G t T) (hb : Reads G b B) :
    Reads G (.ifThen a t b) fun x r v =>
      (∃ v1, v = .pair v1 .none ∧ A x r v1 ∧ ¬ ∃ y z, r = y ++ z ∧ T y z) ∨
      ∃ y z w v1 v2, x = y ++ (z ++ w) ∧ v = .pair v1 (.some v2) ∧ A y (z ++ (w ++ r)) v1 ∧ T z (w ++ r) ∧ B w r v2 := by
  have hc := fun pre rest => C09_ifThen_construct (G := G) (H := extractH (σ := Unit)) (pol := none)
    (d := pre ++ rest) a t b () (blen pre)
  constructor
  · intro pre rest v o'
    rw [(hc pre rest).1]
    constructor
    · rintro (⟨v1, e, o2, rfl, h1, h2⟩ | ⟨v1, st, o1, s, o2, v2, rfl, h1, h2, h3⟩)
      · obtain ⟨y, t1, rfl, hA, rfl⟩ := (ha.ok _ _ _ _).mp h1
        refine ⟨y, t1, rfl, .inl ⟨v1, rfl, hA, ?_⟩, rfl⟩
        rintro ⟨z, r, rfl, hT⟩
        obtain ⟨s, h⟩ := (ht.at (d := pre ++ (y ++ (z ++ r))) (pre := pre ++ y) (rest := z ++ r) (by simp) _).mpr ⟨z, r, rfl, hT, rfl⟩
        cases h2.unique h
      · obtain ⟨y, t1, rfl, hA, rfl⟩ := (ha.ok _ _ _ _).mp h1
        obtain ⟨z, t2, rfl, hB, rfl⟩ := (ht.at (pre := pre ++ y) (rest := t1) (by simp) _).mp ⟨_, h2⟩
        obtain ⟨w, t, rfl, hC, rfl⟩ := (hb.at (pre := pre ++ y ++ z) (rest := t2) (by simp) _ _).mp h3
        exact ⟨y ++ (z ++ w), t, by simp, .inr ⟨y, z, w, v1, v2, rfl, rfl, hA, hB, hC⟩, by simp⟩
    · rintro ⟨x, r, rfl, ⟨v1, rfl, hA, hT⟩ | ⟨y, z, w, v1, v2, rfl, rfl, hA, hB, hC⟩, rfl⟩
      · have h1 := (ha.ok pre (x ++ r) v1 _).mpr ⟨x, r, rfl, hA, rfl⟩
        rcases ht.both (d := pre ++ (x ++ r)) (pre := pre ++ x) (rest := r) (by simp) with ⟨y, z, s, e, h, _⟩ | ⟨e, o2, h2⟩
        · exact absurd ⟨y, z, e, h⟩ hT
        · exact .inl ⟨v1, e, o2, rfl, h1, h2⟩
      · have h1 := (ha.ok pre (y ++ (z ++ w) ++ r) v1 _).mpr ⟨y, z ++ (w ++ r), by simp, hA, rfl⟩
        obtain ⟨s, h2⟩ := (ht.at (d := pre ++ (y ++ (z ++ w) ++ r)) (pre := pre ++ y) (rest := z ++ (w ++ r)) (by simp) _).mpr
          ⟨z, w ++ r, rfl, hB, rfl⟩
        have h3 := (hb.at (d := pre ++ (y ++ (z ++ w) ++ r)) (pre := pre ++ y ++ z) (rest := w ++ r) (by simp) v2 _).mpr
          ⟨w, r, rfl, hC, rfl⟩
        exact .inr ⟨v1, (), _, s, _, v2, rfl, h1, h2, by simpa using h3⟩
  · intro pre rest
    rcases ha.both (pre := pre) (rest := rest) rfl with ⟨y, t, v, rfl, hA, h1⟩ | ⟨e, o', h1⟩
    · rcases ht.both (d := pre ++ (y ++ t)) (pre := pre ++ y) (rest := t) (by simp) with ⟨z, t, s, rfl, _, h2⟩ | ⟨e, o', h2⟩
      · rcases hb.both (d := pre ++ (y ++ (z ++ t))) (pre := pre ++ y ++ z) (rest := t) (by simp) with ⟨w, t, v, _, _, h3⟩ | ⟨e, o', h3⟩
        · exact .inl ⟨_, _, ((hc pre _).1 _ _ _).mpr (.inr ⟨_, _, _, _, _, _, rfl, h1, h2, h3⟩)⟩
        · exact .inr ⟨_, _, ((hc pre _).2 _ _ _).mpr ⟨rfl, .inr ⟨_, _, _, _, _, _, h1, h2, h3⟩⟩⟩
      · exact .inl ⟨_, _, ((hc pre _).1 _ _ _).mpr (.inl ⟨_, _, _, rfl, h1, h2⟩)⟩
    · exact .inr ⟨_, _, ((hc pre _).2 _ _ _).mpr ⟨rfl, .inl ⟨_, h1⟩⟩⟩

theorem passes_comma : Passes G (Api.skipWs (.lit [','])) fun x t => ∃ z, x = [','] ++ z ∧ Chat.Blank z ∧ BlankOff t := by
  have h := passes_of_reads (reads_skipWs (reads_lit (G := G) [','])) ?_ ?_ ?_
  · constructor
    · intro pre rest o'
      refine (h.ok pre rest o').trans ?_
      constructor
      · rintro ⟨a, t, e, ⟨v, y, z, rfl, ⟨rfl, _⟩, h1, h2⟩, ho⟩
        exact ⟨_, t, e, ⟨z, rfl, h1, h2⟩, ho⟩
      · rintro ⟨a, t, e, ⟨z, rfl, h1, h2⟩, ho⟩
        exact ⟨_, t, e, ⟨_, _, z, rfl, ⟨rfl, rfl⟩, h1, h2⟩, ho⟩
    · exact h.total
  · refine CAll.intro trivial ?_
    intro q hq
    simp [CChild, Api.skipWs] at hq
    subst hq
    exact CAll.intro trivial fun q hq => by simp [CChild] at hq
  · refine All.intro trivial ?_
    rintro q (rfl | rfl) <;> exact All.intro trivial fun q hq => by simp [Child, Cond.Has] at hq
  · refine All.intro trivial ?_
    rintro q (rfl | rfl) <;> exact All.intro trivial fun q hq => by simp [Child, Cond.Has] at hq

theorem reads_val : Reads G val fun a t v =>
    (a ≠ [] ∧ (∀ c ∈ a, c ∈ Chars.lower ++ Chars.upper) ∧ Off (· ∈ Chars.lower ++ Chars.upper) t) ∧ v = .base a := by
  have h := reads_many1 (G := G) Unit.asciiAlphabetic
  have e : ∀ c : Char, (Unit.asciiAlphabetic : Neu Char).isMatch c = true ↔ c ∈ Chars.lower ++ Chars.upper := by
    exact fun c => C59_ascii_classes.2.2.2.1.1 c
  simp only [e] at h
  exact h

theorem letter_not_blank {c : Char} (h : c ∈ Chars.lower ++ Chars.upper) : c ∉ Chars.unicodeBlanks := by
  revert c
  decide

theorem reads_tuple : Reads G tuple fun x _ v => ∃ a b, Form x a b ∧ v = value a b := by
  have h := reads_enclose (G := G) (passes_lit ['(']) (reads_ifThen reads_val passes_comma reads_val) (passes_lit [')'])
  have off : ∀ (W : Char → Prop) c l, ¬ W c → Off W (c :: l) := by
    intro W c l hc c' l' e
    cases e; exact hc
  refine Reads.congr h fun x t v => ?_
  constructor
  · rintro ⟨_, z, _, rfl, rfl, ⟨v1, rfl, ⟨⟨h0, h1, _⟩, rfl⟩, _⟩ |
      ⟨a, _, b, _, _, rfl, rfl, ⟨⟨h0, h1, _⟩, rfl⟩, ⟨w, rfl, hw, _⟩, ⟨⟨k0, k1, _⟩, rfl⟩⟩, rfl⟩
    · exact ⟨z, none, .one ⟨h0, h1⟩, rfl⟩
    · exact ⟨a, some b, by simpa using Form.two ⟨h0, h1⟩ hw ⟨k0, k1⟩, rfl⟩
  · rintro ⟨a, b, hf, rfl⟩
    cases hf with
    | one ha =>
      refine ⟨['('], a, [')'], by simp, rfl, .inl ⟨_, rfl, ⟨⟨ha.1, ha.2, off _ _ _ (by decide)⟩, rfl⟩, ?_⟩, rfl⟩
      rintro ⟨y, z, e, w, rfl, _⟩
      simp at e
    | @two _ w b ha hw hb =>
      refine ⟨['('], a ++ (([','] ++ w) ++ b), [')'], by simp, rfl, .inr ⟨a, [','] ++ w, b, _, _, rfl, rfl,
        ⟨⟨ha.1, ha.2, off _ _ _ (by decide)⟩, rfl⟩, ⟨w, rfl, hw, ?_⟩, ⟨⟨hb.1, hb.2, off _ _ _ (by decide)⟩, rfl⟩⟩, rfl⟩
      cases b with
      | nil => exact absurd rfl hb.1
      | cons c l => exact off _ _ _ (letter_not_blank (hb.2 c (by simp)))

/-! ## The property -/

/-- **C106.** `ctor` with the pattern of the documentation, from any position of any text, succeeds exactly where one of the
two forms stands, goes behind it, and yields its words: the second is `None` exactly if it is not written. -/
theorem _root_.Neure.C106_tuple (G : Rules Char (List Char)) (pre rest : List Char) (v : Val (List Char)) (o' : Nat) :
    Constructs G extractH none (pre ++ rest) tuple () (blen pre) (.ok v () o') ↔
      ∃ x t a b, rest = x ++ t ∧ Form x a b ∧ v = value a b ∧ o' = blen (pre ++ x) := by
  rw [reads_tuple.ok]
  constructor
  · rintro ⟨x, t, e, ⟨a, b, hf, hv⟩, ho⟩
    exact ⟨x, t, a, b, e, hf, hv, ho⟩
  · rintro ⟨x, t, a, b, e, hf, hv, ho⟩
    exact ⟨x, t, e, ⟨a, b, hf, hv⟩, ho⟩

/-- **C106 (otherwise).** Where neither form stands it is an error and the position stays. -/
theorem _root_.Neure.C106_tuple_otherwise (G : Rules Char (List Char)) (pre rest : List Char)
    (h : ¬ ∃ x t a b, rest = x ++ t ∧ Form x a b) :
    ∃ e, Constructs G extractH none (pre ++ rest) tuple () (blen pre) (.err e () (blen pre)) := by
  rcases (reads_tuple (G := G)).both (pre := pre) (rest := rest) rfl with ⟨x, t, v, e, ⟨a, b, hf, _⟩, _⟩ | ⟨e, o', he⟩
  · exact absurd ⟨x, t, a, b, e, hf⟩ h
  · obtain ⟨rfl, _⟩ := ((C08_enclose_construct _ _ _ _ _).2 _ _ _).mp he
    exact ⟨e, he⟩

/-- The two texts of the documentation. -/
example : Constructs G0 extractH none "(abc)".toList tuple () 0 (.ok (.pair (.base "abc".toList) .none) () 5) :=
  (C106_tuple G0 [] _ _ _).mpr ⟨['(', 'a', 'b', 'c', ')'], [], ['a', 'b', 'c'], none, rfl, .one (a := ['a', 'b', 'c']) ⟨by decide, by decide⟩, rfl, rfl⟩

example : Constructs G0 extractH none "(abc, cde)".toList tuple () 0
    (.ok (.pair (.base "abc".toList) (.some (.base "cde".toList))) () 10) :=
  (C106_tuple G0 [] _ _ _).mpr ⟨['(', 'a', 'b', 'c', ',', ' ', 'c', 'd', 'e', ')'], [], ['a', 'b', 'c'], some ['c', 'd', 'e'], rfl,
    .two (a := ['a', 'b', 'c']) (w := [' ']) (b := ['c', 'd', 'e']) ⟨by decide, by decide⟩ (by decide) ⟨by decide, by decide⟩, rfl, rfl⟩

/-- White space before the comma is not allowed. -/
example : ∃ e, Constructs G0 extractH none ['(', 'a', ' ', ',', 'b', ')'] tuple () 0 (.err e () 0) :=
  C106_tuple_otherwise G0 [] _ (by
    rintro ⟨x, t, a, b, e, hf⟩
    cases hf with
    | @one a ha =>
      rcases a with _ | ⟨c, _ | ⟨c', l⟩⟩
      · exact ha.1 rfl
      · simp at e
      · simp at e
        exact absurd (ha.2 c' (by simp)) (by rw [← e.2.1]; decide)
    | @two a w b ha hw hb =>
      rcases a with _ | ⟨c, _ | ⟨c', l⟩⟩
      · exact ha.1 rfl
      · simp at e
      · simp at e
        exact absurd (ha.2 c' (by simp)) (by rw [← e.2.1]; decide))

end Neure.Tuple
