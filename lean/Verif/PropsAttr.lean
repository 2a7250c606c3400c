import Verif.AttrLemmas
/-!
# C63: constructing computes the value of the parsing expression
-/

namespace Neure

set_option linter.unusedSectionVars false
set_option linter.unusedSimpArgs false

open Demo

variable {ι β σ : Type} [Item ι] {G : Rules ι β} {H : Handler ι β σ} {R : Nat → Peg ι} {V : Nat → VPeg ι β}
  {g : List ι → List ι → β} {p q : Pat ι β} {E : VPeg ι β} {W : Peg ι}

namespace Attr

theorem main {X : Reading ι β} {pol : Option (Pat ι β)} (hX : ReadOk X G R pol) (hV : RulesAsVal X G V)
    (pre x : List ι) (hH : Handles H (pre ++ x) g) (hp : AsVal X G p E) (st : σ) :
    (∀ v st' o', Constructs G H pol (pre ++ x) p st (blen pre) (.ok v st' o') ↔
      ∃ t y, x = t ++ y ∧ Yields R V g E x (some (v, y)) ∧ st' = st ∧ o' = blen pre + blen t) ∧
    ((∃ e st' o', Constructs G H pol (pre ++ x) p st (blen pre) (.err e st' o')) ↔ Yields R V g E x none) ∧
    ¬ Constructs G H pol (pre ++ x) p st (blen pre) .panic ∧
    ((∃ res, Constructs G H pol (pre ++ x) p st (blen pre) res) ↔ ∃ r, Yields R V g E x r) := by
  have got : ∀ {r}, Yields R V g E x r → Got X G H pol R (pre ++ x) p st pre x r :=
    fun hy => (complete hX hV hH hy).1 p pre st hp rfl
  have run : ∀ {res}, Constructs G H pol (pre ++ x) p st (blen pre) res → ∃ r, Yields R V g E x r := by
    rintro res ⟨n, hn⟩
    exact halts hX hV hH n p E hp st pre x res rfl hn
  refine ⟨fun v st' o' => ⟨fun h => ?_, ?_⟩, ⟨?_, fun hy => ?_⟩, fun h => ?_, fun ⟨_, h⟩ => run h, ?_⟩
  · obtain ⟨r, hr⟩ := run h
    rcases r with _ | ⟨w, y⟩
    · obtain ⟨_, _, h', _⟩ := got hr; cases h.unique h'
    · obtain ⟨t, hx, h'⟩ := got hr
      cases h.unique h'
      exact ⟨t, y, hx, hr, rfl, rfl⟩
  · rintro ⟨t, y, hx, hy, rfl, rfl⟩
    obtain ⟨t', hx', h'⟩ := got hy
    cases List.append_cancel_right (hx.symm.trans hx')
    exact h'
  · rintro ⟨e, st', o', h⟩
    obtain ⟨r, hr⟩ := run h
    rcases r with _ | ⟨w, y⟩
    · exact hr
    · obtain ⟨t, hx, h'⟩ := got hr; cases h.unique h'
  · obtain ⟨e, o', h, _⟩ := got hy; exact ⟨e, st, o', h⟩
  · obtain ⟨r, hr⟩ := run h
    rcases r with _ | ⟨w, y⟩
    · obtain ⟨_, _, h', _⟩ := got hr; cases h.unique h'
    · obtain ⟨t, hx, h'⟩ := got hr; cases h.unique h'
  · rintro ⟨_ | ⟨v, y⟩, hr⟩
    · obtain ⟨e, o', h, _⟩ := got hr; exact ⟨_, h⟩
    · obtain ⟨t, _, h⟩ := got hr; exact ⟨_, h⟩

end Attr

/-- **C63 (plain context).** A pattern that reads as the valued parsing
expression `E` constructs the value `v` exactly when `E` yields `v`, and it ends
exactly where `E` ends; it fails exactly when `E` fails; it never panics; and it
comes back exactly when `E` has a result.  The handler's state is as before. -/
theorem C63_values (hG : RulesAsPeg G R) (hV : RulesAsVal .plain G V) (pre x : List ι)
    (hH : Handles H (pre ++ x) g) (hp : AsVal .plain G p E) (st : σ) :
    (∀ v st' o', Constructs G H none (pre ++ x) p st (blen pre) (.ok v st' o') ↔
      ∃ t y, x = t ++ y ∧ Yields R V g E x (some (v, y)) ∧ st' = st ∧ o' = blen pre + blen t) ∧
    ((∃ e st' o', Constructs G H none (pre ++ x) p st (blen pre) (.err e st' o')) ↔
      Yields R V g E x none) ∧
    ¬ Constructs G H none (pre ++ x) p st (blen pre) .panic ∧
    ((∃ res, Constructs G H none (pre ++ x) p st (blen pre) res) ↔ ∃ r, Yields R V g E x r) :=
  Attr.main (Attr.readOk_plain hG) hV pre x hH hp st

/-- **C63 (skipping context).** The same in a context that skips `q` before
every leaf and every delimiter. -/
theorem C63_values_skipping (hq : SkipReads G R q W) (hi : SkipOnce R W) (hG : RulesAsPegIn W G R)
    (hV : RulesAsVal (.skipping W) G V) (pre x : List ι) (hH : Handles H (pre ++ x) g)
    (hp : AsVal (.skipping W) G p E) (st : σ) :
    (∀ v st' o', Constructs G H (some q) (pre ++ x) p st (blen pre) (.ok v st' o') ↔
      ∃ t y, x = t ++ y ∧ Yields R V g E x (some (v, y)) ∧ st' = st ∧ o' = blen pre + blen t) ∧
    ((∃ e st' o', Constructs G H (some q) (pre ++ x) p st (blen pre) (.err e st' o')) ↔
      Yields R V g E x none) ∧
    ¬ Constructs G H (some q) (pre ++ x) p st (blen pre) .panic ∧
    ((∃ res, Constructs G H (some q) (pre ++ x) p st (blen pre) res) ↔ ∃ r, Yields R V g E x r) :=
  Attr.main (Attr.readOk_skipping hq hi hG) hV pre x hH hp st

/-- **C63 (slices).** `ctx.ctor` hands out the matched text itself. -/
theorem C63_handles_extract (d : List ι) : Handles (extractH (σ := σ)) d (fun t _ => t) := by
  intro pre t y o st hd
  have : origSub d (blen pre) (blen t) = .ok t :=
    textBetween_iff_origSub.mpr ⟨pre, y, by simpa using hd, rfl, rfl⟩
  simp [extractH, this]

/-- **C63 (spans).** `ctx.ctor_span` hands out where the text is: its length, and
as position what is neither the text nor behind it. -/
theorem C63_handles_span (d : List ι) :
    Handles (spanH (σ := σ)) d (fun t y => ⟨blen d - (blen t + blen y), blen t⟩) := by
  intro pre t y o st hd
  have : blen d - (blen t + blen y) = blen pre := by rw [hd]; simp only [blen_append]; omega
  simp [spanH, this]

/-- **C63 (the expression's value is unique).** -/
theorem C63_yields_unique {x : List ι} {r r'} (h : Yields R V g E x r) (h' : Yields R V g E x r') : r = r' := by
  induction h generalizing r' with
  | text_ok hw hf =>
    cases h' with
    | text_ok hw' hf' =>
      have h1 := hw.unique hw'
      injection h1 with h1
      have h2 := hf.unique (h1 ▸ hf')
      injection h2 with h2
      subst h2
      rw [List.append_cancel_right h1]
    | text_no h => cases h.unique (.seq_ok hw hf)
  | text_no hf =>
    cases h' with
    | text_ok hw' hf' => cases hf.unique (.seq_ok hw' hf')
    | text_no _ => rfl
  | fail => cases h'; rfl
  | nt _ ih => cases h' with | nt h => exact ih h
  | ite _ ih => cases h' with | ite h => exact ih h
  | upto_full =>
    cases h' with
    | upto_full => rfl
    | upto_stop h => exact absurd rfl h
    | upto_more h => exact absurd rfl h
  | many_ok _ hm ih =>
    cases h' with
    | many_ok h h' => have := ih h; grind
    | many_no h h' => have := ih h; grind [Attr.list_inj]
  | many_no _ hm ih =>
    cases h' with
    | many_ok h h' => have := ih h; grind [Attr.list_inj]
    | many_no h h' => rfl
  | list_ok _ hm ih =>
    cases h' with
    | list_ok h h' => have := ih h; grind
    | list_no h h' => have := ih h; grind [Attr.list_inj]
  | list_no _ hm ih =>
    cases h' with
    | list_ok h h' => have := ih h; grind [Attr.list_inj]
    | list_no h h' => rfl
  | _ => cases h' <;> grind [Ford.unique]

/-! ### Cases -/

namespace Attr

/-- At most three digits, like `from_str::<u8>`. -/
def short : Val (List Char) → Out (Val (List Char))
  | .base t => if t.length ≤ 3 then .ok (.base t) else .err (.uid 7)
  | _ => .err (.uid 8)

def short' : Val (List Char) → Option (Val (List Char))
  | .base t => if t.length ≤ 3 then some (.base t) else none
  | _ => none

/-- `digit.try_map(short).sep(",".skip_ws()).enclose("[", "]")`, as in
`src/ctor.rs:384-387`. -/
def numberList : Pat Char (List Char) :=
  .enclose (.lit ['['])
    (.sep (.map (.many1 (.pred Char.isDigit) .empty) short)
      (.suf (.lit [',']) (.many0 (.item ' ') .empty)) true 1) (.lit [']'])

def digits : Peg Char := .plus (.cls Char.isDigit)

def numberListVal : VPeg Char (List Char) :=
  .after (.lit ['['])
    (.before (.list (.map short' (.text .eps digits)) (.seq (.lit [',']) (.star (.cls (Neu.isMatch (.item ' '))))) true 1
      (.alt (.seq .eps digits) (.opt .eps)) (.opt .eps)) (.lit [']']))

theorem numberList_as : AsVal .plain G0 numberList numberListVal :=
  .enclose (.lit _)
    (.sep true 1
      (.map short' (fun v => by cases v <;> simp only [short] <;> (try split) <;> simp)
        (fun v w => by
          cases v <;> simp only [short, short'] <;> (try split) <;> simp)
        (.leaf trivial (by simp) (.many1 _)))
      (.mapLeaf trivial (by simp) (.many1 _)) (.suf (.lit _) (.many0 _)))
    (.lit _)

end Attr

/-- Non-vacuity: the hypotheses hold of a list of numbers with a mapper that may
fail, and such a list is indeed constructed. -/
example : RulesAsPeg (β := List Char) G0 (fun _ => Peg.fail (ι := Char)) ∧
    RulesAsVal .plain (ι := Char) (β := List Char) G0 (fun _ => .fail) ∧
    AsVal .plain G0 Attr.numberList Attr.numberListVal ∧
    Constructs (σ := Unit) G0 extractH none "[2, 16,42]".toList Attr.numberList () 0
      (.ok (Val.list [.base ['2'], .base ['1', '6'], .base ['4', '2']]) () 10) :=
  ⟨fun _ => .inr ⟨rfl, rfl⟩, fun _ => .inr ⟨rfl, rfl⟩, Attr.numberList_as, 14, by decide +kernel⟩

/-- **C20 (counterexample).** A list element whose mapper fails ends the list
*behind* its text: the list is accepted, and the element has disappeared. -/
theorem C20_dropped_element_counterexample :
    Constructs (σ := Unit) G0 extractH none "[2, 16,4242]".toList Attr.numberList () 0
      (.ok (Val.list [.base ['2'], .base ['1', '6']]) () 12) := ⟨14, by decide +kernel⟩

namespace Attr

/-- Spaces. -/
def blanks : Peg Char := .star (.cls (Neu.isMatch (.item ' ')))

/-- `tree = "(" tree tree ")" | letters`, tied with a recursive handle. -/
def tree : Rules Char (List Char) := fun i =>
  if i = 0 then some (.or (.enclose (.lit ['(']) (.thn (.cell 0) (.cell 0)) (.lit [')']))
    (.many1 (.pred Char.isAlpha) .empty)) else none

def treePeg : Nat → Peg Char := fun i =>
  if i = 0 then
    .alt (.seq blanks (.seq (.seq blanks (.lit ['(']))
        (.seq (.seq blanks (.seq (.seq blanks (.nt 0)) (.seq blanks (.nt 0)))) (.seq blanks (.lit [')'])))))
      (.seq blanks (.plus (.cls Char.isAlpha)))
  else .fail

def treeVal : Nat → VPeg Char (List Char) := fun i =>
  if i = 0 then .alt
      (.after (.seq blanks (.lit ['('])) (.before (.pair (.nt 0) (.nt 0)) (.seq blanks (.lit [')']))))
      (.text blanks (.plus (.cls Char.isAlpha)))
  else .fail

theorem tree_peg : RulesAsPegIn blanks tree treePeg := by
  intro i
  by_cases h : i = 0
  · subst h
    exact .inl ⟨_, rfl, .or (.enclose (.leaf trivial (.lit _)) (.thn (.cell 0) (.cell 0)) (.leaf trivial (.lit _)))
      (.leaf trivial (.many1 _))⟩
  · exact .inr ⟨by simp [tree, h], by simp [treePeg, h]⟩

theorem tree_val : RulesAsVal (.skipping blanks) tree treeVal := by
  intro i
  by_cases h : i = 0
  · subst h
    exact .inl ⟨_, rfl, .or (.enclose ⟨_, .leaf trivial (.lit _), rfl⟩ (.thn (.cell 0) (.cell 0))
      ⟨_, .leaf trivial (.lit _), rfl⟩) (.leaf trivial (by simp) ⟨trivial, .many1 _⟩)⟩
  · exact .inr ⟨by simp [tree, h], by simp [treeVal, h]⟩

end Attr

/-- Non-vacuity, skipping and recursive: binary trees with spaces. -/
example : RulesAsPegIn Attr.blanks Attr.tree Attr.treePeg ∧
    RulesAsVal (.skipping Attr.blanks) Attr.tree Attr.treeVal ∧
    AsVal (.skipping Attr.blanks) Attr.tree (.cell 0) (.nt 0) ∧
    SkipReads Attr.tree Attr.treePeg (.many0 (.item ' ') .empty) Attr.blanks ∧ SkipOnce Attr.treePeg Attr.blanks ∧
    Constructs (σ := Unit) Attr.tree extractH (some (.many0 (.item ' ') .empty)) " ( a (b  cd) )".toList (.cell 0) () 0
      (.ok (.pair (.base ['a']) (.pair (.base ['b']) (.base ['c', 'd']))) () 14) :=
  ⟨Attr.tree_peg, Attr.tree_val, .cell 0, (C62_skip_class _ _ (.item ' ')).1,
    (C62_skip_class Attr.tree _ (.item ' ')).2, 14, by decide +kernel⟩

/-- Non-vacuity, dependent: one more `#` asks for one more letter. -/
example : ∃ p E, AsVal (β := List Char) .plain G0 p E ∧
    E = .bind (.text .eps (.plus (.cls (Neu.isMatch (.item '#'))))) (fun v => match v with
      | .base t => .text .eps (.rep (.cls Char.isAlpha) t.length (some t.length))
      | _ => .fail) ∧
    Constructs (σ := Unit) G0 extractH none "##abc".toList p () 0 (.ok (.pair (.base ['#', '#']) (.base ['a', 'b'])) () 4) := by
  refine ⟨.dthen (.many1 (.item '#') .empty) fun _ o v => .ok (match v with
      | .base t => .between t.length t.length (.pred Char.isAlpha) .empty
      | _ => .choice .fail []) o, _, ?_, rfl, 8, by decide +kernel⟩
  refine .dthen (fun v => match v with
      | .base t => .between t.length t.length (.pred Char.isAlpha) .empty
      | _ => .choice .fail []) _ (fun _ _ _ => rfl) (.leaf trivial (by simp) (.many1 _)) fun v => ?_
  cases v with
  | base t => exact .leaf trivial (by simp) (.between _ _ _ (C24_fair _ (.inl trivial)) (Nat.le_refl _))
  | _ => exact .choice_nil _

end Neure
