import Verif.Space
import Verif.PropsSkip

/-!
# Lemmas for C80: grammars with and without their skips

`Erased W e e0` relates a grammar with skips written out to the one without.  On texts on which
`W` takes nothing the two do the same.
-/

namespace Neure

set_option linter.unusedSectionVars false

variable {ι β σ : Type} [Item ι] {G : Rules ι β} {H : Handler ι β σ} {pol : Option (Pat ι β)} {d : List ι}
variable {R : Nat → Peg ι} {e : Peg ι} {p : Pat ι β}

/-! ## Leaving blanks out -/

namespace Space

/-- `Erased W e e0`: `e0` is `e` without the skips. -/
inductive Erased (W : Peg ι) : Peg ι → Peg ι → Prop where
  | same {e : Peg ι} : e.NoNt → Erased W e e
  | nt (i) : Erased W (.nt i) (.nt i)
  | drop {a a0} : Erased W a a0 → Erased W (.seq W a) a0
  | behind {a a0} : Erased W a a0 → Erased W (.seq a (.opt W)) a0
  | skipped : Erased W (.opt W) .eps
  | seq {a b a0 b0} : Erased W a a0 → Erased W b b0 → Erased W (.seq a b) (.seq a0 b0)
  | alt {a b a0 b0} : Erased W a a0 → Erased W b b0 → Erased W (.alt a b) (.alt a0 b0)
  | star {a a0} : Erased W a a0 → Erased W (.star a) (.star a0)
  | not {a a0} : Erased W a a0 → Erased W (.not a) (.not a0)

/-- The same without a skip at the outside. -/
inductive Core (W : Peg ι) : Peg ι → Peg ι → Prop where
  | same {e : Peg ι} : e.NoNt → Core W e e
  | nt (i) : Core W (.nt i) (.nt i)
  | skipped : Core W (.opt W) .eps
  | seq {a b a0 b0} : Erased W a a0 → Erased W b b0 → Core W (.seq a b) (.seq a0 b0)
  | alt {a b a0 b0} : Erased W a a0 → Erased W b b0 → Core W (.alt a b) (.alt a0 b0)
  | star {a a0} : Erased W a a0 → Core W (.star a) (.star a0)
  | not {a a0} : Erased W a a0 → Core W (.not a) (.not a0)

variable {W : Peg ι} {R0 : Nat → Peg ι} {e0 : Peg ι}

theorem core_of {P : List ι → Prop} (hW : ∀ x, P x → Ford R W x (some x)) (hP : ∀ t y, P (t ++ y) → P y)
    (h : Erased W e e0) : ∃ e1, Core W e1 e0 ∧ ∀ x r, P x → Ford R e1 x r → Ford R e x r := by
  induction h with
  | same h => exact ⟨_, .same h, fun _ _ _ h => h⟩
  | nt i => exact ⟨_, .nt i, fun _ _ _ h => h⟩
  | drop _ ih =>
    obtain ⟨e1, h1, h2⟩ := ih
    exact ⟨e1, h1, fun x r hx h => .seq_ok (hW x hx) (h2 x r hx h)⟩
  | behind _ ih =>
    obtain ⟨e1, h1, h2⟩ := ih
    refine ⟨e1, h1, fun x r hx h => ?_⟩
    have h3 := h2 x r hx h
    cases r with
    | none => exact .seq_fail h3
    | some y =>
      obtain ⟨t, rfl, -⟩ := ford_derives h3
      exact .seq_ok h3 (.alt_1 (hW y (hP t y hx)))
  | skipped => exact ⟨_, .skipped, fun _ _ _ h => h⟩
  | seq ha hb => exact ⟨_, .seq ha hb, fun _ _ _ h => h⟩
  | alt ha hb => exact ⟨_, .alt ha hb, fun _ _ _ h => h⟩
  | star ha => exact ⟨_, .star ha, fun _ _ _ h => h⟩
  | not ha => exact ⟨_, .not ha, fun _ _ _ h => h⟩

theorem erased_ford {P : List ι → Prop} (hW : ∀ x, P x → Ford R W x (some x)) (hP : ∀ t y, P (t ++ y) → P y)
    (hR : ∀ i, Erased W (R i) (R0 i)) {x r} (h : Ford R0 e0 x r) (hx : P x) :
    ∀ e, Erased W e e0 → Ford R e x r := by
  have suf : ∀ {R : Nat → Peg ι} {e : Peg ι} {x y}, Ford R e x (some y) → P x → P y := by
    intro R e x y hf hx
    obtain ⟨t, rfl, -⟩ := ford_derives hf
    exact hP t y hx
  have lift : ∀ {e0 : Peg ι} {x r}, P x → (∀ e1, Core W e1 e0 → Ford R e1 x r) → ∀ e, Erased W e e0 → Ford R e x r := by
    intro e0 x r hx h e he
    obtain ⟨e1, h1, h2⟩ := core_of hW hP he
    exact h2 x r hx (h e1 h1)
  induction h with
  | eps =>
    refine lift hx fun e1 h1 => ?_
    cases h1 with
    | same => exact .eps
    | skipped => exact .alt_1 (hW _ hx)
  | cls_ok h =>
    refine lift hx fun e1 h1 => ?_
    cases h1 with
    | same => exact .cls_ok h
  | cls_no h =>
    refine lift hx fun e1 h1 => ?_
    cases h1 with
    | same => exact .cls_no h
  | cls_end =>
    refine lift hx fun e1 h1 => ?_
    cases h1 with
    | same => exact .cls_end
  | nt _ ih =>
    refine lift hx fun e1 h1 => ?_
    cases h1 with
    | same h => exact h.elim
    | nt => exact .nt (ih hx _ (hR _))
  | seq_ok h1 h2 ih1 ih2 =>
    refine lift hx fun e1 hc => ?_
    cases hc with
    | same h => exact .seq_ok (Skip.ford_noNt h1 h.1) (Skip.ford_noNt h2 h.2)
    | seq ha hb => exact .seq_ok (ih1 hx _ ha) (ih2 (suf h1 hx) _ hb)
  | seq_fail h1 ih1 =>
    refine lift hx fun e1 hc => ?_
    cases hc with
    | same h => exact .seq_fail (Skip.ford_noNt h1 h.1)
    | seq ha hb => exact .seq_fail (ih1 hx _ ha)
  | alt_1 h1 ih1 =>
    refine lift hx fun e1 hc => ?_
    cases hc with
    | same h => exact .alt_1 (Skip.ford_noNt h1 h.1)
    | alt ha hb => exact .alt_1 (ih1 hx _ ha)
  | alt_2 h1 h2 ih1 ih2 =>
    refine lift hx fun e1 hc => ?_
    cases hc with
    | same h => exact .alt_2 (Skip.ford_noNt h1 h.1) (Skip.ford_noNt h2 h.2)
    | alt ha hb => exact .alt_2 (ih1 hx _ ha) (ih2 hx _ hb)
  | star_end h1 ih1 =>
    refine lift hx fun e1 hc => ?_
    cases hc with
    | same h => exact .star_end (Skip.ford_noNt h1 h)
    | star ha => exact .star_end (ih1 hx _ ha)
  | star_more h1 h2 ih1 ih2 =>
    refine lift hx fun e1 hc => ?_
    cases hc with
    | same h => exact Skip.ford_noNt (.star_more h1 h2) h
    | star ha => exact .star_more (ih1 hx _ ha) (ih2 (suf h1 hx) _ (.star ha))
  | not_ok h1 ih1 =>
    refine lift hx fun e1 hc => ?_
    cases hc with
    | same h => exact .not_ok (Skip.ford_noNt h1 h)
    | not ha => exact .not_ok (ih1 hx _ ha)
  | not_fail h1 ih1 =>
    refine lift hx fun e1 hc => ?_
    cases hc with
    | same h => exact .not_fail (Skip.ford_noNt h1 h)
    | not ha => exact .not_fail (ih1 hx _ ha)

theorem ford_erased {P : List ι → Prop} (hW : ∀ x, P x → Ford R W x (some x)) (hP : ∀ t y, P (t ++ y) → P y)
    (hR : ∀ i, Erased W (R i) (R0 i)) {x r} (h : Ford R e x r) (hx : P x) :
    ∀ e0, Erased W e e0 → Ford R0 e0 x r := by
  have suf : ∀ {R : Nat → Peg ι} {e : Peg ι} {x y}, Ford R e x (some y) → P x → P y := by
    intro R e x y hf hx
    obtain ⟨t, rfl, -⟩ := ford_derives hf
    exact hP t y hx
  have none_ : ∀ {x r}, P x → Ford R W x r → r = some x := fun hx h => h.unique (hW _ hx)
  induction h with
  | eps => intro e0 h; cases h; exact .eps
  | cls_ok h1 => intro e0 h; cases h; exact .cls_ok h1
  | cls_no h1 => intro e0 h; cases h; exact .cls_no h1
  | cls_end => intro e0 h; cases h; exact .cls_end
  | nt _ ih =>
    intro e0 h
    cases h with
    | same h => exact h.elim
    | nt => exact .nt (ih hx _ (hR _))
  | seq_ok h1 h2 ih1 ih2 =>
    intro e0 h
    cases h with
    | same h => exact .seq_ok (Skip.ford_noNt h1 h.1) (Skip.ford_noNt h2 h.2)
    | drop ha => cases none_ hx h1; exact ih2 hx _ ha
    | behind ha =>
      cases h2.unique (.alt_1 (hW _ (suf h1 hx)))
      exact ih1 hx _ ha
    | seq ha hb => exact .seq_ok (ih1 hx _ ha) (ih2 (suf h1 hx) _ hb)
  | seq_fail h1 ih1 =>
    intro e0 h
    cases h with
    | same h => exact .seq_fail (Skip.ford_noNt h1 h.1)
    | drop ha => cases none_ hx h1
    | behind ha => exact ih1 hx _ ha
    | seq ha hb => exact .seq_fail (ih1 hx _ ha)
  | alt_1 h1 ih1 =>
    intro e0 h
    cases h with
    | same h => exact .alt_1 (Skip.ford_noNt h1 h.1)
    | skipped => cases none_ hx h1; exact .eps
    | alt ha hb => exact .alt_1 (ih1 hx _ ha)
  | alt_2 h1 h2 ih1 ih2 =>
    intro e0 h
    cases h with
    | same h => exact .alt_2 (Skip.ford_noNt h1 h.1) (Skip.ford_noNt h2 h.2)
    | skipped => cases none_ hx h1
    | alt ha hb => exact .alt_2 (ih1 hx _ ha) (ih2 hx _ hb)
  | star_end h1 ih1 =>
    intro e0 h
    cases h with
    | same h => exact .star_end (Skip.ford_noNt h1 h)
    | star ha => exact .star_end (ih1 hx _ ha)
  | star_more h1 h2 ih1 ih2 =>
    intro e0 h
    cases h with
    | same h => exact Skip.ford_noNt (.star_more h1 h2) h
    | star ha => exact .star_more (ih1 hx _ ha) (ih2 (suf h1 hx) _ (.star ha))
  | not_ok h1 ih1 =>
    intro e0 h
    cases h with
    | same h => exact .not_ok (Skip.ford_noNt h1 h)
    | not ha => exact .not_ok (ih1 hx _ ha)
  | not_fail h1 ih1 =>
    intro e0 h
    cases h with
    | same h => exact .not_fail (Skip.ford_noNt h1 h)
    | not ha => exact .not_fail (ih1 hx _ ha)

theorem erased_times {a a0 w w0 : Peg ι} (ha : Erased W a a0) (hw : Erased W w w0) (m : Nat) :
    Erased W (Peg.times a w m) (Peg.times a0 w0 m) := by
  induction m with
  | zero => exact hw
  | succ m ih => exact .seq ha ih

theorem erased_repIn (ha : Erased W e e0) (m : Nat) (n : Option Nat) :
    Erased W (Peg.repIn W e m n) (Peg.rep e0 m n) := by
  cases n with
  | none => exact .behind (erased_times (.drop ha) (.star (.drop ha)) m)
  | some n =>
    refine erased_times (.drop ha) ?_ m
    induction n - m with
    | zero => exact .same trivial
    | succ k ih => exact .alt (.seq (.drop ha) ih) .skipped

theorem erased_list {a s a0 s0 : Peg ι} (ha : Erased W a a0) (hs : Erased W s s0) : ∀ m,
    Erased W (Peg.list a s m) (Peg.list a0 s0 m)
  | 0 => .seq (.star (.seq ha hs)) (.alt ha (.same trivial))
  | 1 => .seq ha (.alt (.seq hs (.seq (.star (.seq ha hs)) (.alt ha (.same trivial)))) (.same trivial))
  | k + 2 => .seq ha (.seq hs (erased_list ha hs (k + 1)))

theorem noNt_leaf {p : Pat ι β} (hp : Primitive p) (ha : AsPeg p e) : e.NoNt := by
  have times : ∀ {a w : Peg ι}, a.NoNt → w.NoNt → ∀ m, (Peg.times a w m).NoNt := by
    intro a w h1 h2 m
    induction m with
    | zero => exact h2
    | succ m ih => exact ⟨h1, ih⟩
  have rep : ∀ {a : Peg ι}, a.NoNt → ∀ m n, (Peg.rep a m n).NoNt := by
    intro a h1 m n
    cases n with
    | none => exact times h1 (w := .star a) h1 m
    | some n =>
      refine times h1 ?_ m
      induction n - m with
      | zero => trivial
      | succ k ih => exact ⟨⟨h1, ih⟩, trivial⟩
  have lit : ∀ l : List ι, (Peg.lit l).NoNt := by
    intro l
    induction l with
    | nil => trivial
    | cons c l ih => exact ⟨trivial, ih⟩
  cases ha with
  | lit l => exact lit l
  | between u m n => exact rep (a := .cls u.isMatch) trivial _ _
  | times u r m n => exact rep (a := .cls u.isMatch) trivial _ _
  | empty | anchorEnd | consumeAll | once | many0 => trivial
  | fail => trivial
  | many1 => exact ⟨trivial, trivial⟩
  | optU => exact ⟨trivial, trivial⟩
  | thenU => exact ⟨trivial, trivial⟩
  | _ => exact absurd hp id

theorem erased_as (h : AsPegIn W p e) : ∃ e0, AsPeg p e0 ∧ Erased W e e0 := by
  induction h with
  | leaf hp ha => exact ⟨_, ha, .same (noNt_leaf hp ha)⟩
  | cell i => exact ⟨_, .cell i, .nt i⟩
  | map f _ i1 => obtain ⟨_, h1, h2⟩ := i1; exact ⟨_, .map f h1, .drop h2⟩
  | pat _ i1 => obtain ⟨_, h1, h2⟩ := i1; exact ⟨_, .pat h1, .drop h2⟩
  | thn _ _ i1 i2 => obtain ⟨_, h1, h2⟩ := i1; obtain ⟨_, h3, h4⟩ := i2; exact ⟨_, .thn h1 h3, .seq (.drop h2) (.drop h4)⟩
  | pre _ _ i1 i2 => obtain ⟨_, h1, h2⟩ := i1; obtain ⟨_, h3, h4⟩ := i2; exact ⟨_, .pre h1 h3, .seq (.drop h2) (.drop h4)⟩
  | suf _ _ i1 i2 => obtain ⟨_, h1, h2⟩ := i1; obtain ⟨_, h3, h4⟩ := i2; exact ⟨_, .suf h1 h3, .seq (.drop h2) (.drop h4)⟩
  | enclose _ _ _ i1 i2 i3 =>
    obtain ⟨_, h1, h2⟩ := i1; obtain ⟨_, h3, h4⟩ := i2; obtain ⟨_, h5, h6⟩ := i3
    exact ⟨_, .enclose h1 h3 h5, .seq (.drop h2) (.seq (.drop h4) (.drop h6))⟩
  | sepOnce _ _ _ i1 i2 i3 =>
    obtain ⟨_, h1, h2⟩ := i1; obtain ⟨_, h3, h4⟩ := i2; obtain ⟨_, h5, h6⟩ := i3
    exact ⟨_, .sepOnce h1 h3 h5, .seq (.drop h2) (.seq (.drop h4) (.drop h6))⟩
  | ifThen _ _ _ i1 i2 i3 =>
    obtain ⟨_, h1, h2⟩ := i1; obtain ⟨_, h3, h4⟩ := i2; obtain ⟨_, h5, h6⟩ := i3
    exact ⟨_, .ifThen h1 h3 h5, .seq (.drop h2) (.alt (.seq (.drop h4) (.drop h6)) (.not (.drop h4)))⟩
  | or _ _ i1 i2 => obtain ⟨_, h1, h2⟩ := i1; obtain ⟨_, h3, h4⟩ := i2; exact ⟨_, .or h1 h3, .alt (.drop h2) (.drop h4)⟩
  | opt _ i1 => obtain ⟨_, h1, h2⟩ := i1; exact ⟨_, .opt h1, .alt (.drop h2) (.same trivial)⟩
  | isnt _ i1 => obtain ⟨_, h1, h2⟩ := i1; exact ⟨_, .isnt h1, .not (.drop h2)⟩
  | is _ i1 => obtain ⟨_, h1, h2⟩ := i1; exact ⟨_, .is h1, .not (.not (.drop h2))⟩
  | choice_nil er => exact ⟨_, .choice_nil er, .same trivial⟩
  | choice_cons er _ _ i1 i2 =>
    obtain ⟨_, h1, h2⟩ := i1; obtain ⟨_, h3, h4⟩ := i2; exact ⟨_, .choice_cons er h1 h3, .alt (.drop h2) h4⟩
  | rep r m n _ hc i1 => obtain ⟨_, h1, h2⟩ := i1; exact ⟨_, .rep r m n h1 hc, erased_repIn h2 m n⟩
  | collect m _ i1 => obtain ⟨_, h1, h2⟩ := i1; exact ⟨_, .collect m h1, erased_repIn h2 m none⟩
  | sep m _ _ i1 i2 =>
    obtain ⟨_, h1, h2⟩ := i1; obtain ⟨_, h3, h4⟩ := i2
    exact ⟨_, .sep m h1 h3, .behind (erased_list (.drop h2) (.drop h4) m)⟩
  | sepCollect m _ _ i1 i2 =>
    obtain ⟨_, h1, h2⟩ := i1; obtain ⟨_, h3, h4⟩ := i2
    exact ⟨_, .sepCollect m h1 h3, .behind (erased_list (.drop h2) (.drop h4) m)⟩

theorem erased_rules (hG : RulesAsPegIn W G R) : ∃ R0, RulesAsPeg G R0 ∧ ∀ i, Erased W (R i) (R0 i) := by
  have : ∀ i, ∃ e, ((∃ q, G i = some q ∧ AsPeg q e) ∨ (G i = none ∧ e = .fail)) ∧ Erased W (R i) e := by
    intro i
    rcases hG i with ⟨q, hq, ha⟩ | ⟨hq, he⟩
    · obtain ⟨e, he, h⟩ := erased_as ha; exact ⟨e, .inl ⟨q, hq, he⟩, h⟩
    · exact ⟨_, .inr ⟨hq, rfl⟩, by rw [he]; exact .same trivial⟩
  exact ⟨fun i => (this i).choose, fun i => (this i).choose_spec.1, fun i => (this i).choose_spec.2⟩

variable {L : Peg ι → Prop}

theorem laid_times {a w : Peg ι} (ha : Laid W L false a) (hw : Laid W L false w) (m : Nat) :
    Laid W L false (Peg.times a w m) := by
  induction m with
  | zero => exact hw
  | succ m ih => exact .seq ha ih

theorem laid_opt {a : Peg ι} (ha : Laid W L false a) : Laid W L false a.opt := .alt ha .eps

theorem laid_repIn (ha : Laid W L true e) (m : Nat) (n : Option Nat) : Laid W L false (Peg.repIn W e m n) := by
  cases n with
  | none => exact .seq (laid_times (.skip ha) (.star (.skip ha)) m) (laid_opt .skipped)
  | some n =>
    refine laid_times (.skip ha) ?_ m
    induction n - m with
    | zero => exact .eps
    | succ k ih => exact .alt (.seq (.skip ha) ih) (laid_opt .skipped)

theorem laid_list {a s : Peg ι} (ha : Laid W L false a) (hs : Laid W L false s) : ∀ m,
    Laid W L false (Peg.list a s m)
  | 0 => .seq (.star (.seq ha hs)) (laid_opt ha)
  | 1 => .seq ha (laid_opt (.seq hs (.seq (.star (.seq ha hs)) (laid_opt ha))))
  | k + 2 => .seq ha (.seq hs (laid_list ha hs (k + 1)))

theorem laid_as (h : AsPegIn W p e) (ha : All G (fun q => Primitive q → ∀ e, AsPeg q e → L e) p) :
    Laid W L true e ∧ ((∃ er items, p = .choice er items) → Laid W L false e) := by
  induction h with
  | leaf hp h => exact ⟨.token (ha.self hp _ h), by rintro ⟨_, _, rfl⟩; exact absurd hp id⟩
  | cell i => exact ⟨.nt i, by rintro ⟨_, _, h⟩; cases h⟩
  | map f _ i1 => refine ⟨.behind (?_), by rintro ⟨_, _, h⟩; cases h⟩; exact (.skip ((i1 (ha.child rfl)).1))
  | pat _ i1 => refine ⟨.behind (?_), by rintro ⟨_, _, h⟩; cases h⟩; exact (.skip ((i1 (ha.child rfl)).1))
  | thn _ _ i1 i2 => refine ⟨.behind (?_), by rintro ⟨_, _, h⟩; cases h⟩; exact (.seq (.skip ((i1 (ha.child (.inl rfl))).1)) (.skip ((i2 (ha.child (.inr rfl))).1)))
  | pre _ _ i1 i2 => refine ⟨.behind (?_), by rintro ⟨_, _, h⟩; cases h⟩; exact (.seq (.skip ((i1 (ha.child (.inl rfl))).1)) (.skip ((i2 (ha.child (.inr rfl))).1)))
  | suf _ _ i1 i2 => refine ⟨.behind (?_), by rintro ⟨_, _, h⟩; cases h⟩; exact (.seq (.skip ((i1 (ha.child (.inl rfl))).1)) (.skip ((i2 (ha.child (.inr rfl))).1)))
  | enclose _ _ _ i1 i2 i3 =>
    refine ⟨.behind (?_), by rintro ⟨_, _, h⟩; cases h⟩; exact (.seq (.skip ((i1 (ha.child (.inl rfl))).1)) (.seq (.skip ((i2 (ha.child (.inr (.inl rfl)))).1))
      (.skip ((i3 (ha.child (.inr (.inr rfl)))).1))))
  | sepOnce _ _ _ i1 i2 i3 =>
    refine ⟨.behind (?_), by rintro ⟨_, _, h⟩; cases h⟩; exact (.seq (.skip ((i1 (ha.child (.inl rfl))).1)) (.seq (.skip ((i2 (ha.child (.inr (.inl rfl)))).1))
      (.skip ((i3 (ha.child (.inr (.inr rfl)))).1))))
  | ifThen _ _ _ i1 i2 i3 =>
    have h2 := Laid.skip ((i2 (ha.child (.inr (.inl rfl)))).1)
    refine ⟨.behind (?_), by rintro ⟨_, _, h⟩; cases h⟩; exact (.seq (.skip ((i1 (ha.child (.inl rfl))).1)) (.alt (.seq h2 (.skip ((i3 (ha.child (.inr (.inr rfl)))).1)))
      (.not h2)))
  | or _ _ i1 i2 => refine ⟨.behind (?_), by rintro ⟨_, _, h⟩; cases h⟩; exact (.alt (.skip ((i1 (ha.child (.inl rfl))).1)) (.skip ((i2 (ha.child (.inr rfl))).1)))
  | opt _ i1 => refine ⟨.behind (?_), by rintro ⟨_, _, h⟩; cases h⟩; exact (laid_opt (.skip ((i1 (ha.child rfl)).1)))
  | isnt _ i1 => refine ⟨.behind (?_), by rintro ⟨_, _, h⟩; cases h⟩; exact (.not (.skip ((i1 (ha.child rfl)).1)))
  | is _ i1 => refine ⟨.behind (?_), by rintro ⟨_, _, h⟩; cases h⟩; exact (.not (.not (.skip ((i1 (ha.child rfl)).1))))
  | choice_nil er => exact ⟨.behind (.not .eps), fun _ => .not .eps⟩
  | choice_cons er _ _ i1 i2 =>
    have h1 := i1 (ha.child ⟨_, List.mem_cons_self, rfl⟩)
    have h2 := i2 (.intro (fun h => h.elim) fun q hq => by
      obtain ⟨it, hi, rfl⟩ := hq
      exact ha.child ⟨it, List.mem_cons_of_mem _ hi, rfl⟩)
    have h3 := h2.2 ⟨_, _, rfl⟩
    exact ⟨.behind (.alt (.skip h1.1) h3), fun _ => .alt (.skip h1.1) h3⟩
  | rep r m n _ hc i1 => refine ⟨.behind (?_), by rintro ⟨_, _, h⟩; cases h⟩; exact (laid_repIn ((i1 (ha.child rfl)).1) m n)
  | collect m _ i1 => refine ⟨.behind (?_), by rintro ⟨_, _, h⟩; cases h⟩; exact (laid_repIn ((i1 (ha.child rfl)).1) m none)
  | sep m _ _ i1 i2 =>
    refine ⟨.behind (?_), by rintro ⟨_, _, h⟩; cases h⟩; exact (.seq (laid_list (.skip ((i1 (ha.child (.inl rfl))).1)) (.skip ((i2 (ha.child (.inr rfl))).1)) m)
      (laid_opt .skipped))
  | sepCollect m _ _ i1 i2 =>
    refine ⟨.behind (?_), by rintro ⟨_, _, h⟩; cases h⟩; exact (.seq (laid_list (.skip ((i1 (ha.child (.inl rfl))).1)) (.skip ((i2 (ha.child (.inr rfl))).1)) m)
      (laid_opt .skipped))

end Space

end Neure
