import Verif.SpaceSpec
import Verif.PropsCfg
/-!
# Lemmas for C80: parsing texts that differ in their spacing
-/

namespace Neure

set_option linter.unusedSectionVars false
set_option linter.unusedSimpArgs false

namespace Space

variable {ι β : Type} {R : Nat → Peg ι} {V : Nat → VPeg ι β}

/-- Results that are alike: both failed, or both left texts in the relation `P`. -/
def Both (P : List ι → List ι → Prop) : Option (List ι) → Option (List ι) → Prop
  | none, none => True
  | some y, some y' => P y y'
  | _, _ => False

/-- Tokens take the same text. -/
def Alike (R : Nat → Peg ι) (Tight Loose : List ι → List ι → Prop) (e : Peg ι) : Prop :=
  ∀ x x' r, Tight x x' → Ford R e x r → (r = none ∧ Ford R e x' none) ∨
    ∃ t y y', x = t ++ y ∧ x' = t ++ y' ∧ r = some y ∧ Ford R e x' (some y') ∧ Loose y y'

structure Gaps (R : Nat → Peg ι) (W : Peg ι) (Tight Loose : List ι → List ι → Prop) : Prop where
  skip : ∀ x x' r, Loose x x' → Ford R W x r → ∃ r', Ford R W x' r' ∧ Both Tight r r'
  loose : ∀ x x', Tight x x' → Loose x x'

variable {W : Peg ι} {L : Peg ι → Prop} {Tight Loose : List ι → List ι → Prop}

theorem both_loose (hg : Gaps R W Tight Loose) {r r'} (h : Both Tight r r') : Both Loose r r' := by
  match r, r', h with
  | none, none, _ => trivial
  | some _, some _, h => exact hg.loose _ _ h

theorem alike_both {e : Peg ι} (h : Alike R Tight Loose e) {x x' r} (hx : Tight x x') (hf : Ford R e x r) :
    ∃ r', Ford R e x' r' ∧ Both Loose r r' := by
  rcases h x x' r hx hf with ⟨rfl, h'⟩ | ⟨_, y, y', _, _, rfl, h', hy⟩
  · exact ⟨none, h', trivial⟩
  · exact ⟨some y', h', hy⟩

theorem laid_same (hg : Gaps R W Tight Loose) (hL : ∀ e, L e → Alike R Tight Loose e) (hR : ∀ i, Laid W L true (R i))
    {e : Peg ι} {x r} (h : Ford R e x r) :
    (Laid W L false e → ∀ x', Loose x x' → ∃ r', Ford R e x' r' ∧ Both Loose r r') ∧
    (Laid W L true e → ∀ x', Tight x x' → ∃ r', Ford R e x' r' ∧ Both Loose r r') := by
  have lift : ∀ {e : Peg ι} {x r}, Ford R e x r → (∀ i, e ≠ .nt i) →
      (Laid W L false e → ∀ x', Loose x x' → ∃ r', Ford R e x' r' ∧ Both Loose r r') →
      Laid W L true e → ∀ x', Tight x x' → ∃ r', Ford R e x' r' ∧ Both Loose r r' := by
    intro e x r hf hn h1 hl x' hx
    cases hl with
    | token h => exact alike_both (hL _ h) hx hf
    | nt i => exact absurd rfl (hn i)
    | behind h => exact h1 h x' (hg.loose _ _ hx)
  have skipped : ∀ {x r}, Ford R W x r → ∀ x', Loose x x' → ∃ r', Ford R W x' r' ∧ Both Loose r r' := by
    intro x r hf x' hx
    obtain ⟨r', h1, h2⟩ := hg.skip x x' r hx hf
    exact ⟨r', h1, both_loose hg h2⟩
  induction h with
  | @eps x =>
    have : Laid W L false .eps → ∀ x', Loose x x' → ∃ r', Ford R .eps x' r' ∧ Both Loose (some x) r' :=
      fun _ x' hx => ⟨some x', .eps, hx⟩
    exact ⟨this, lift .eps (by simp) this⟩
  | @cls_ok f a x h =>
    have : Laid W L false (.cls f) → ∀ x', Loose (a :: x) x' → ∃ r', Ford R (.cls f) x' r' ∧ Both Loose (some x) r' := by
      intro hl
      cases hl with
      | skipped => exact skipped (.cls_ok h)
    exact ⟨this, lift (.cls_ok h) (by simp) this⟩
  | @cls_no f a x h =>
    have : Laid W L false (.cls f) → ∀ x', Loose (a :: x) x' → ∃ r', Ford R (.cls f) x' r' ∧ Both Loose none r' := by
      intro hl
      cases hl with
      | skipped => exact skipped (.cls_no h)
    exact ⟨this, lift (.cls_no h) (by simp) this⟩
  | @cls_end f =>
    have : Laid W L false (.cls f) → ∀ x', Loose [] x' → ∃ r', Ford R (.cls f) x' r' ∧ Both Loose none r' := by
      intro hl
      cases hl with
      | skipped => exact skipped .cls_end
    exact ⟨this, lift .cls_end (by simp) this⟩
  | @nt i x r h ih =>
    refine ⟨fun hl => ?_, fun hl x' hx => ?_⟩
    · cases hl with
      | skipped => exact skipped (.nt h)
    · cases hl with
      | token hl => exact alike_both (hL _ hl) hx (.nt h)
      | nt i =>
        obtain ⟨r', h1, h2⟩ := ih.2 (hR i) x' hx
        exact ⟨r', .nt h1, h2⟩
      | behind hl =>
        cases hl with
        | skipped => exact skipped (.nt h) x' (hg.loose _ _ hx)
  | @seq_ok a b x y r h1 h2 ih1 ih2 =>
    have : Laid W L false (.seq a b) → ∀ x', Loose x x' → ∃ r', Ford R (.seq a b) x' r' ∧ Both Loose r r' := by
      intro hl x' hx
      cases hl with
      | skipped => exact skipped (.seq_ok h1 h2) x' hx
      | skip hl =>
        obtain ⟨r1, h3, h4⟩ := hg.skip x x' _ hx h1
        cases r1 with
        | none => exact h4.elim
        | some y' =>
          obtain ⟨r', h5, h6⟩ := ih2.2 hl y' h4
          exact ⟨r', .seq_ok h3 h5, h6⟩
      | seq ha hb =>
        obtain ⟨r1, h3, h4⟩ := ih1.1 ha x' hx
        cases r1 with
        | none => exact h4.elim
        | some y' =>
          obtain ⟨r', h5, h6⟩ := ih2.1 hb y' h4
          exact ⟨r', .seq_ok h3 h5, h6⟩
    exact ⟨this, lift (.seq_ok h1 h2) (by simp) this⟩
  | @seq_fail a b x h1 ih1 =>
    have : Laid W L false (.seq a b) → ∀ x', Loose x x' → ∃ r', Ford R (.seq a b) x' r' ∧ Both Loose none r' := by
      intro hl x' hx
      cases hl with
      | skipped => exact skipped (.seq_fail h1) x' hx
      | skip hl =>
        obtain ⟨r1, h3, h4⟩ := hg.skip x x' _ hx h1
        cases r1 with
        | none => exact ⟨none, .seq_fail h3, trivial⟩
        | some y' => exact h4.elim
      | seq ha hb =>
        obtain ⟨r1, h3, h4⟩ := ih1.1 ha x' hx
        cases r1 with
        | none => exact ⟨none, .seq_fail h3, trivial⟩
        | some y' => exact h4.elim
    exact ⟨this, lift (.seq_fail h1) (by simp) this⟩
  | @alt_1 a b x y h1 ih1 =>
    have : Laid W L false (.alt a b) → ∀ x', Loose x x' → ∃ r', Ford R (.alt a b) x' r' ∧ Both Loose (some y) r' := by
      intro hl x' hx
      cases hl with
      | skipped => exact skipped (.alt_1 h1) x' hx
      | alt ha hb =>
        obtain ⟨r1, h3, h4⟩ := ih1.1 ha x' hx
        cases r1 with
        | none => exact h4.elim
        | some y' => exact ⟨some y', .alt_1 h3, h4⟩
    exact ⟨this, lift (.alt_1 h1) (by simp) this⟩
  | @alt_2 a b x r h1 h2 ih1 ih2 =>
    have : Laid W L false (.alt a b) → ∀ x', Loose x x' → ∃ r', Ford R (.alt a b) x' r' ∧ Both Loose r r' := by
      intro hl x' hx
      cases hl with
      | skipped => exact skipped (.alt_2 h1 h2) x' hx
      | alt ha hb =>
        obtain ⟨r1, h3, h4⟩ := ih1.1 ha x' hx
        cases r1 with
        | none =>
          obtain ⟨r', h5, h6⟩ := ih2.1 hb x' hx
          exact ⟨r', .alt_2 h3 h5, h6⟩
        | some y' => exact h4.elim
    exact ⟨this, lift (.alt_2 h1 h2) (by simp) this⟩
  | @star_end a x h1 ih1 =>
    have : Laid W L false (.star a) → ∀ x', Loose x x' → ∃ r', Ford R (.star a) x' r' ∧ Both Loose (some x) r' := by
      intro hl x' hx
      cases hl with
      | skipped => exact skipped (.star_end h1) x' hx
      | star ha =>
        obtain ⟨r1, h3, h4⟩ := ih1.1 ha x' hx
        cases r1 with
        | none => exact ⟨some x', .star_end h3, hx⟩
        | some y' => exact h4.elim
    exact ⟨this, lift (.star_end h1) (by simp) this⟩
  | @star_more a x y r h1 h2 ih1 ih2 =>
    have : Laid W L false (.star a) → ∀ x', Loose x x' → ∃ r', Ford R (.star a) x' r' ∧ Both Loose r r' := by
      intro hl x' hx
      cases hl with
      | skipped => exact skipped (.star_more h1 h2) x' hx
      | star ha =>
        obtain ⟨r1, h3, h4⟩ := ih1.1 ha x' hx
        cases r1 with
        | none => exact h4.elim
        | some y' =>
          obtain ⟨r', h5, h6⟩ := ih2.1 (.star ha) y' h4
          exact ⟨r', .star_more h3 h5, h6⟩
    exact ⟨this, lift (.star_more h1 h2) (by simp) this⟩
  | @not_ok a x h1 ih1 =>
    have : Laid W L false (.not a) → ∀ x', Loose x x' → ∃ r', Ford R (.not a) x' r' ∧ Both Loose (some x) r' := by
      intro hl x' hx
      cases hl with
      | skipped => exact skipped (.not_ok h1) x' hx
      | not ha =>
        obtain ⟨r1, h3, h4⟩ := ih1.1 ha x' hx
        cases r1 with
        | none => exact ⟨some x', .not_ok h3, hx⟩
        | some y' => exact h4.elim
    exact ⟨this, lift (.not_ok h1) (by simp) this⟩
  | @not_fail a x y h1 ih1 =>
    have : Laid W L false (.not a) → ∀ x', Loose x x' → ∃ r', Ford R (.not a) x' r' ∧ Both Loose none r' := by
      intro hl x' hx
      cases hl with
      | skipped => exact skipped (.not_fail h1) x' hx
      | not ha =>
        obtain ⟨r1, h3, h4⟩ := ih1.1 ha x' hx
        cases r1 with
        | none => exact h4.elim
        | some y' => exact ⟨none, .not_fail h3, trivial⟩
    exact ⟨this, lift (.not_fail h1) (by simp) this⟩

/-- The same for values. -/
def VBoth (P : List ι → List ι → Prop) : Option (Val β × List ι) → Option (Val β × List ι) → Prop
  | none, none => True
  | some (v, y), some (v', y') => v' = v ∧ P y y'
  | _, _ => False

theorem vlaid_same (hg : Gaps R W Tight Loose) (hL : ∀ e, L e → Alike R Tight Loose e) (hR : ∀ i, Laid W L true (R i))
    (hV : ∀ i, VLaid W L (V i)) {g g' : List ι → List ι → β} (hgg : ∀ t y y', g t y = g' t y') {E : VPeg ι β} {x r}
    (h : Yields R V g E x r) : VLaid W L E → ∀ x', Loose x x' → ∃ r', Yields R V g' E x' r' ∧ VBoth Loose r r' := by
  have ford_ok : ∀ {e : Peg ι} {x y}, Ford R e x (some y) → Laid W L false e → ∀ x', Loose x x' →
      ∃ y', Ford R e x' (some y') ∧ Loose y y' := by
    intro e x y hf hl x' hx
    obtain ⟨r', h1, h2⟩ := (laid_same hg hL hR hf).1 hl x' hx
    cases r' with
    | none => exact h2.elim
    | some y' => exact ⟨y', h1, h2⟩
  have ford_no : ∀ {e : Peg ι} {x}, Ford R e x none → Laid W L false e → ∀ x', Loose x x' → Ford R e x' none := by
    intro e x hf hl x' hx
    obtain ⟨r', h1, h2⟩ := (laid_same hg hL hR hf).1 hl x' hx
    cases r' with
    | none => exact h1
    | some y' => exact h2.elim
  have ok : ∀ {E : VPeg ι β} {x' v y}, (∃ r', Yields R V g' E x' r' ∧ VBoth Loose (some (v, y)) r') →
      ∃ y', Yields R V g' E x' (some (v, y')) ∧ Loose y y' := by
    rintro E x' v y ⟨r', h1, h2⟩
    match r', h1, h2 with
    | some (v', y'), h1, h2 => exact ⟨y', h2.1 ▸ h1, h2.2⟩
  have no : ∀ {E : VPeg ι β} {x'}, (∃ r', Yields R V g' E x' r' ∧ VBoth Loose none r') → Yields R V g' E x' none := by
    rintro E x' ⟨r', h1, h2⟩
    match r', h1, h2 with
    | none, h1, _ => exact h1
  induction h with
  | @text_ok W e x t y h1 h2 =>
    intro hl x' hx
    cases hl with
    | text hl =>
      obtain ⟨r1, h3, h4⟩ := hg.skip x x' _ hx h1
      cases r1 with
      | none => exact h4.elim
      | some z' =>
        rcases hL _ hl _ z' _ h4 h2 with ⟨h, _⟩ | ⟨t1, y1, y', e1, e2, e3, h5, h6⟩
        · cases h
        · cases e3
          have : t = t1 := List.append_cancel_right e1
          subst this e2
          exact ⟨_, .text_ok h3 h5, congrArg Val.base (hgg _ _ _).symm, h6⟩
  | text_no h1 =>
    intro hl x' hx
    cases hl with
    | text hl => exact ⟨none, .text_no (ford_no h1 (.skip (.token hl)) x' hx), trivial⟩
  | fail => exact fun _ x' _ => ⟨none, .fail, trivial⟩
  | @nt i x r _ ih =>
    intro hl x' hx
    obtain ⟨r', h1, h2⟩ := ih (hV i) x' hx
    exact ⟨r', .nt h1, h2⟩
  | pair_ok _ _ ih1 ih2 =>
    intro hl x' hx
    cases hl with
    | pair ha hb =>
      obtain ⟨y', h1, h2⟩ := ok (ih1 ha x' hx)
      obtain ⟨z', h3, h4⟩ := ok (ih2 hb y' h2)
      exact ⟨_, .pair_ok h1 h3, rfl, h4⟩
  | pair_no1 _ ih1 =>
    intro hl x' hx
    cases hl with
    | pair ha hb => exact ⟨none, .pair_no1 (no (ih1 ha x' hx)), trivial⟩
  | pair_no2 _ _ ih1 ih2 =>
    intro hl x' hx
    cases hl with
    | pair ha hb =>
      obtain ⟨y', h1, h2⟩ := ok (ih1 ha x' hx)
      exact ⟨none, .pair_no2 h1 (no (ih2 hb y' h2)), trivial⟩
  | after_ok hf _ ih =>
    intro hl x' hx
    cases hl with
    | after he ha =>
      obtain ⟨y', h1, h2⟩ := ford_ok hf he x' hx
      obtain ⟨r', h3, h4⟩ := ih ha y' h2
      exact ⟨r', .after_ok h1 h3, h4⟩
  | after_no hf =>
    intro hl x' hx
    cases hl with
    | after he ha => exact ⟨none, .after_no (ford_no hf he x' hx), trivial⟩
  | before_ok _ hf ih =>
    intro hl x' hx
    cases hl with
    | before ha he =>
      obtain ⟨y', h1, h2⟩ := ok (ih ha x' hx)
      obtain ⟨z', h3, h4⟩ := ford_ok hf he y' h2
      exact ⟨_, .before_ok h1 h3, rfl, h4⟩
  | before_no1 _ ih =>
    intro hl x' hx
    cases hl with
    | before ha he => exact ⟨none, .before_no1 (no (ih ha x' hx)), trivial⟩
  | before_no2 _ hf ih =>
    intro hl x' hx
    cases hl with
    | before ha he =>
      obtain ⟨y', h1, h2⟩ := ok (ih ha x' hx)
      exact ⟨none, .before_no2 h1 (ford_no hf he y' h2), trivial⟩
  | cond_yes _ hf _ ih1 ih2 =>
    intro hl x' hx
    cases hl with
    | cond ha ht hb =>
      obtain ⟨y', h1, h2⟩ := ok (ih1 ha x' hx)
      obtain ⟨z', h3, h4⟩ := ford_ok hf ht y' h2
      obtain ⟨u', h5, h6⟩ := ok (ih2 hb z' h4)
      exact ⟨_, .cond_yes h1 h3 h5, rfl, h6⟩
  | cond_no _ hf ih1 =>
    intro hl x' hx
    cases hl with
    | cond ha ht hb =>
      obtain ⟨y', h1, h2⟩ := ok (ih1 ha x' hx)
      exact ⟨_, .cond_no h1 (ford_no hf ht y' h2), rfl, h2⟩
  | cond_fail1 _ ih1 =>
    intro hl x' hx
    cases hl with
    | cond ha ht hb => exact ⟨none, .cond_fail1 (no (ih1 ha x' hx)), trivial⟩
  | cond_fail2 _ hf _ ih1 ih2 =>
    intro hl x' hx
    cases hl with
    | cond ha ht hb =>
      obtain ⟨y', h1, h2⟩ := ok (ih1 ha x' hx)
      obtain ⟨z', h3, h4⟩ := ford_ok hf ht y' h2
      exact ⟨none, .cond_fail2 h1 h3 (no (ih2 hb z' h4)), trivial⟩
  | alt_1 _ ih =>
    intro hl x' hx
    cases hl with
    | alt ha hb =>
      obtain ⟨y', h1, h2⟩ := ok (ih ha x' hx)
      exact ⟨_, .alt_1 h1, rfl, h2⟩
  | alt_2 _ _ ih1 ih2 =>
    intro hl x' hx
    cases hl with
    | alt ha hb =>
      obtain ⟨r', h3, h4⟩ := ih2 hb x' hx
      exact ⟨r', .alt_2 (no (ih1 ha x' hx)) h3, h4⟩
  | longest_l | longest_r | longest_a | longest_b | ite => intro hl; cases hl
  | opt_some _ ih =>
    intro hl x' hx
    cases hl with
    | opt ha =>
      obtain ⟨y', h1, h2⟩ := ok (ih ha x' hx)
      exact ⟨_, .opt_some h1, rfl, h2⟩
  | opt_none _ ih =>
    intro hl x' hx
    cases hl with
    | opt ha => exact ⟨_, .opt_none (no (ih ha x' hx)), rfl, hx⟩
  | map_ok _ hf ih =>
    intro hl x' hx
    cases hl with
    | map ha =>
      obtain ⟨y', h1, h2⟩ := ok (ih ha x' hx)
      exact ⟨_, .map_ok h1 hf, rfl, h2⟩
  | map_no _ hf ih =>
    intro hl x' hx
    cases hl with
    | map ha =>
      obtain ⟨y', h1, h2⟩ := ok (ih ha x' hx)
      exact ⟨none, .map_no h1 hf, trivial⟩
  | map_fail _ ih =>
    intro hl x' hx
    cases hl with
    | map ha => exact ⟨none, .map_fail (no (ih ha x' hx)), trivial⟩
  | bind_ok _ _ ih1 ih2 =>
    intro hl x' hx
    cases hl with
    | bind ha hb =>
      obtain ⟨y', h1, h2⟩ := ok (ih1 ha x' hx)
      obtain ⟨z', h3, h4⟩ := ok (ih2 (hb _) y' h2)
      exact ⟨_, .bind_ok h1 h3, rfl, h4⟩
  | bind_no1 _ ih1 =>
    intro hl x' hx
    cases hl with
    | bind ha hb => exact ⟨none, .bind_no1 (no (ih1 ha x' hx)), trivial⟩
  | bind_no2 _ _ ih1 ih2 =>
    intro hl x' hx
    cases hl with
    | bind ha hb =>
      obtain ⟨y', h1, h2⟩ := ok (ih1 ha x' hx)
      exact ⟨none, .bind_no2 h1 (no (ih2 (hb _) y' h2)), trivial⟩
  | upto_full => exact fun _ x' hx => ⟨_, .upto_full, rfl, hx⟩
  | upto_stop hn _ hf ih =>
    intro hl x' hx
    cases hl with
    | upto ha hT =>
      obtain ⟨y', h1, h2⟩ := ford_ok hf hT x' hx
      exact ⟨_, .upto_stop hn (no (ih ha x' hx)) h1, rfl, h2⟩
  | upto_more hn _ _ ih1 ih2 =>
    intro hl x' hx
    cases hl with
    | upto ha hT =>
      obtain ⟨y', h1, h2⟩ := ok (ih1 ha x' hx)
      obtain ⟨z', h3, h4⟩ := ok (ih2 (.upto ha hT) y' h2)
      exact ⟨_, .upto_more hn h1 h3, rfl, h4⟩
  | many_ok _ hm ih =>
    intro hl x' hx
    cases hl with
    | many ha hT =>
      obtain ⟨y', h1, h2⟩ := ok (ih (.upto ha hT) x' hx)
      exact ⟨_, .many_ok h1 hm, rfl, h2⟩
  | many_no _ hm ih =>
    intro hl x' hx
    cases hl with
    | many ha hT =>
      obtain ⟨y', h1, h2⟩ := ok (ih (.upto ha hT) x' hx)
      exact ⟨none, .many_no h1 hm, trivial⟩
  | seps_stop _ hf ih =>
    intro hl x' hx
    cases hl with
    | seps ha hs hT hTs =>
      obtain ⟨y', h1, h2⟩ := ford_ok hf hT x' hx
      exact ⟨_, .seps_stop (no (ih ha x' hx)) h1, rfl, h2⟩
  | seps_last _ hf1 hf2 ih =>
    intro hl x' hx
    cases hl with
    | seps ha hs hT hTs =>
      obtain ⟨y', h1, h2⟩ := ok (ih ha x' hx)
      obtain ⟨z', h3, h4⟩ := ford_ok hf2 hTs y' h2
      exact ⟨_, .seps_last h1 (ford_no hf1 hs y' h2) h3, rfl, h4⟩
  | seps_more _ hf _ ih1 ih2 =>
    intro hl x' hx
    cases hl with
    | seps ha hs hT hTs =>
      obtain ⟨y', h1, h2⟩ := ok (ih1 ha x' hx)
      obtain ⟨z', h3, h4⟩ := ford_ok hf hs y' h2
      obtain ⟨u', h5, h6⟩ := ok (ih2 (.seps ha hs hT hTs) z' h4)
      exact ⟨_, .seps_more h1 h3 h5, rfl, h6⟩
  | list_ok _ hm ih =>
    intro hl x' hx
    cases hl with
    | list ha hs hT hTs =>
      obtain ⟨y', h1, h2⟩ := ok (ih (.seps ha hs hT hTs) x' hx)
      exact ⟨_, .list_ok h1 hm, rfl, h2⟩
  | list_no _ hm ih =>
    intro hl x' hx
    cases hl with
    | list ha hs hT hTs =>
      obtain ⟨y', h1, h2⟩ := ok (ih (.seps ha hs hT hTs) x' hx)
      exact ⟨none, .list_no h1 hm, trivial⟩

/-! ## Blanks -/

section Blanks
variable {b : ι → Bool} {A : ι → ι → Prop}

def NoBlank (b : ι → Bool) (x : List ι) : Prop := ∀ c z, x = c :: z → b c = false

theorem spaced_none {p x x'} (h : Spaced b A p x x') : Spaced b A none x x' := by
  cases h with
  | tail h1 h2 => exact .tail h1 h2
  | next h1 h2 h3 _ h5 => exact .next h1 h2 h3 (.inr (.inl rfl)) h5

theorem spaced_refl : ∀ p x, Spaced b A p x x := by
  intro p x
  induction x using (measure List.length).wf.induction generalizing p with
  | _ x ih =>
    have e := List.takeWhile_append_dropWhile (p := b) (l := x)
    have hu : ∀ c ∈ x.takeWhile b, b c = true := (List.all_eq_true.mp List.all_takeWhile)
    cases h : x.dropWhile b with
    | nil =>
      rw [h, List.append_nil] at e
      rw [← e]
      exact .tail hu hu
    | cons c z =>
      rw [h] at e
      have hc : b c = false := by
        have := List.head?_dropWhile_not b x
        rw [h] at this
        simpa using this
      rw [← e]
      refine .next hu hu hc (.inl Iff.rfl) (ih z ?_ _)
      show z.length < x.length
      rw [← e]
      simp
      omega

theorem spaced_symm {p x x'} (h : Spaced b A p x x') : Spaced b A p x' x := by
  induction h with
  | tail h1 h2 => exact .tail h2 h1
  | next h1 h2 h3 h4 _ ih => exact .next h2 h1 h3 (h4.imp_left Iff.symm) ih

theorem drop_blanks {u : List ι} (hu : ∀ c ∈ u, b c = true) {x : List ι} (hx : NoBlank b x) :
    (u ++ x).dropWhile b = x := by
  induction u with
  | nil =>
    cases x with
    | nil => rfl
    | cons c x => simp [hx c x rfl]
  | cons a u ih =>
    rw [List.cons_append, List.dropWhile_cons, if_pos (hu a (by simp))]
    exact ih fun c hc => hu c (by simp [hc])

/-- Skipping blanks. -/
theorem ford_blanks (x : List ι) : Ford R (.star (.cls b)) x (some (x.dropWhile b)) := by
  induction x with
  | nil => exact .star_end .cls_end
  | cons a x ih =>
    rw [List.dropWhile_cons]
    split
    · rename_i h; exact .star_more (.cls_ok h) ih
    · rename_i h; exact .star_end (.cls_no (by simpa using h))

def TightB (b : ι → Bool) (A : ι → ι → Prop) (x x' : List ι) : Prop :=
  Spaced b A none x x' ∧ NoBlank b x ∧ NoBlank b x'

theorem gaps (R : Nat → Peg ι) (b : ι → Bool) (A : ι → ι → Prop) :
    Gaps R (.star (.cls b)) (TightB b A) (Spaced b A none) := by
  refine ⟨?_, fun x x' h => h.1⟩
  intro x x' r hx hf
  obtain rfl := hf.unique (ford_blanks x)
  refine ⟨_, ford_blanks x', ?_⟩
  show TightB b A _ _
  cases hx with
  | tail h1 h2 =>
    have e : ∀ u : List ι, (∀ c ∈ u, b c = true) → u.dropWhile b = [] := by
      intro u hu
      have := drop_blanks hu (x := []) (by intro c z h; cases h)
      simpa using this
    rw [e _ h1, e _ h2]
    exact ⟨.tail (by simp) (by simp), (by intro c z h; cases h), (by intro c z h; cases h)⟩
  | @next _ c u u' x x' h1 h2 h3 h4 h5 =>
    have hn : ∀ z, NoBlank b (c :: z) := by intro z c' z' h; cases h; exact h3
    rw [drop_blanks h1 (hn _), drop_blanks h2 (hn _)]
    exact ⟨.next (u := []) (u' := []) (by simp) (by simp) h3 (.inl Iff.rfl) h5, hn _, hn _⟩

theorem token_same {e : Peg ι} {x r} (h : Ford R e x r) : e.Token b A → ∀ p x', Spaced b A p x x' →
    (p = none → NoBlank b x ∧ NoBlank b x') → (∀ a d, p = some a → A a d → e.begins d = false) →
    (r = none ∧ Ford R e x' none) ∨
    ∃ t y y', x = t ++ y ∧ x' = t ++ y' ∧ r = some y ∧ Ford R e x' (some y') ∧
      ((t = [] ∧ e.nullable (fun _ => false) = true) ∨
        ∃ c, t.getLast? = some c ∧ e.last c = true ∧ Spaced b A (some c) y y') := by
  induction h with
  | eps => exact fun _ p x' _ _ _ => .inr ⟨[], _, x', rfl, rfl, rfl, .eps, .inl ⟨rfl, rfl⟩⟩
  | @cls_ok f a x hf =>
    intro ht p x' hs hp hc
    have ha : b a = false := by
      cases hb : b a with
      | true => rw [ht a hb] at hf; cases hf
      | false => rfl
    generalize hx : a :: x = ax at hs
    cases hs with
    | @tail _ u u' h1 _ =>
      subst hx
      rw [h1 a (by simp)] at ha; cases ha
    | @next _ c u u' z z' h1 h2 h3 h4 h5 =>
      cases u with
      | cons a' u =>
        injection hx with e1 _
        subst e1
        rw [h1 a (by simp)] at ha; cases ha
      | nil =>
        injection hx with e1 e2
        subst e1 e2
        have hu : u' = [] := by
          rcases h4 with h4 | h4 | ⟨a', h4, h6⟩
          · exact h4.mp rfl
          · cases u' with
            | nil => rfl
            | cons d u' =>
              have := (hp h4).2 d _ rfl
              rw [h2 d (by simp)] at this; cases this
          · have := hc a' a h4 h6
            rw [show (Peg.cls f).begins a = f a from rfl, hf] at this; cases this
        subst hu
        exact .inr ⟨[a], x, z', rfl, rfl, rfl, .cls_ok hf, .inr ⟨a, rfl, hf, h5⟩⟩
  | @cls_no f a x hf =>
    intro ht p x' hs hp hc
    refine .inl ⟨rfl, ?_⟩
    have blank : ∀ {u' : List ι}, (∀ c ∈ u', b c = true) → ∀ z, u' ≠ [] → Ford R (.cls f) (u' ++ z) none := by
      intro u' hu z hne
      cases u' with
      | nil => exact absurd rfl hne
      | cons d u' => exact .cls_no (ht d (hu d (by simp)))
    generalize hx : a :: x = ax at hs
    cases hs with
    | @tail _ u u' h1 h2 =>
      by_cases hne : x' = []
      · subst hne; exact .cls_end
      · simpa using blank h2 [] hne
    | @next _ c u u' z z' h1 h2 h3 h4 h5 =>
      by_cases hne : u' = []
      · subst hne
        cases u with
        | nil =>
          injection hx with e1 e2
          subst e1
          exact .cls_no hf
        | cons a' u =>
          refine .cls_no ?_
          rcases h4 with h4 | h4 | ⟨a'', h4, h6⟩
          · cases h4.mpr rfl
          · have := (hp h4).1 a' _ hx
            rw [h1 a' (by simp)] at this; cases this
          · exact hc a'' c h4 h6
      · exact blank h2 _ hne
  | @cls_end f =>
    intro ht p x' hs hp hc
    refine .inl ⟨rfl, ?_⟩
    generalize hx : ([] : List ι) = ax at hs
    cases hs with
    | @tail _ u u' h1 h2 =>
      cases x' with
      | nil => exact .cls_end
      | cons d u' => exact .cls_no (ht d (h2 d (by simp)))
    | @next _ c u u' z z' h1 h2 h3 h4 h5 => cases u <;> cases hx
  | nt => exact fun ht => ht.elim
  | @seq_ok e1 e2 x y r h1 h2 ih1 ih2 =>
    intro ht p x' hs hp hc
    have hc1 : ∀ a d, p = some a → A a d → e1.begins d = false := by
      intro a d h3 h4
      have := hc a d h3 h4
      simp only [Peg.begins, Peg.first, Bool.or_eq_false_iff] at this
      exact this.1
    rcases ih1 ht.1 p x' hs hp hc1 with ⟨h, _⟩ | ⟨t, y1, y', rfl, rfl, h3, h4, h5⟩
    · cases h
    · cases h3
      rcases h5 with ⟨rfl, hn⟩ | ⟨c, hl, hla, hs'⟩
      · have hc2 : ∀ a d, p = some a → A a d → e2.begins d = false := by
          intro a d h5 h6
          have := hc a d h5 h6
          simp only [Peg.begins, Peg.first, Bool.or_eq_false_iff, hn, Bool.true_and] at this
          exact this.2
        rcases ih2 ht.2.1 p y' hs hp hc2 with ⟨rfl, h6⟩ | ⟨t2, z, z', e3, e4, rfl, h6, h7⟩
        · exact .inl ⟨rfl, .seq_ok h4 h6⟩
        · refine .inr ⟨t2, z, z', e3, e4, rfl, .seq_ok h4 h6, ?_⟩
          rcases h7 with ⟨rfl, hn2⟩ | ⟨c, h8, h9, h10⟩
          · exact .inl ⟨rfl, by simp [Peg.nullable, hn, hn2]⟩
          · exact .inr ⟨c, h8, by simp [Peg.last, h9], h10⟩
      · rcases ih2 ht.2.1 (some c) y' hs' (by simp)
          (fun a d h5 h6 => by cases h5; exact ht.2.2 c d h6 hla) with ⟨rfl, h6⟩ | ⟨t2, z, z', rfl, rfl, rfl, h6, h7⟩
        · exact .inl ⟨rfl, .seq_ok h4 h6⟩
        · refine .inr ⟨t ++ t2, z, z', by simp, by simp, rfl, .seq_ok h4 h6, ?_⟩
          rcases h7 with ⟨rfl, hn2⟩ | ⟨c', h8, h9, h10⟩
          · exact .inr ⟨c, by simpa using hl, by simp [Peg.last, hn2, hla], hs'⟩
          · exact .inr ⟨c', by simp [List.getLast?_append, h8], by simp [Peg.last, h9], h10⟩
  | @seq_fail e1 e2 x h1 ih1 =>
    intro ht p x' hs hp hc
    have hc1 : ∀ a d, p = some a → A a d → e1.begins d = false := by
      intro a d h3 h4
      have := hc a d h3 h4
      simp only [Peg.begins, Peg.first, Bool.or_eq_false_iff] at this
      exact this.1
    rcases ih1 ht.1 p x' hs hp hc1 with ⟨_, h⟩ | ⟨_, _, _, _, _, h, _⟩
    · exact .inl ⟨rfl, .seq_fail h⟩
    · cases h
  | @alt_1 e1 e2 x y h1 ih1 =>
    intro ht p x' hs hp hc
    have hc1 : ∀ a d, p = some a → A a d → e1.begins d = false := by
      intro a d h3 h4
      have := hc a d h3 h4
      simp only [Peg.begins, Peg.first, Bool.or_eq_false_iff] at this
      exact this.1
    rcases ih1 ht.1 p x' hs hp hc1 with ⟨h, _⟩ | ⟨t, z, z', e3, e4, h5, h6, h7⟩
    · cases h
    · refine .inr ⟨t, z, z', e3, e4, h5, .alt_1 h6, ?_⟩
      rcases h7 with ⟨h8, h9⟩ | ⟨c, h8, h9, h10⟩
      · exact .inl ⟨h8, by simp [Peg.nullable, h9]⟩
      · exact .inr ⟨c, h8, by simp [Peg.last, h9], h10⟩
  | @alt_2 e1 e2 x r h1 h2 ih1 ih2 =>
    intro ht p x' hs hp hc
    have hc1 : ∀ a d, p = some a → A a d → e1.begins d = false ∧ e2.begins d = false := by
      intro a d h3 h4
      have := hc a d h3 h4
      simpa only [Peg.begins, Peg.first, Bool.or_eq_false_iff] using this
    rcases ih1 ht.1 p x' hs hp (fun a d h3 h4 => (hc1 a d h3 h4).1) with ⟨_, h⟩ | ⟨_, _, _, _, _, h, _⟩
    · rcases ih2 ht.2 p x' hs hp (fun a d h3 h4 => (hc1 a d h3 h4).2) with ⟨rfl, h'⟩ | ⟨t, z, z', e3, e4, h5, h6, h7⟩
      · exact .inl ⟨rfl, .alt_2 h h'⟩
      · refine .inr ⟨t, z, z', e3, e4, h5, .alt_2 h h6, ?_⟩
        rcases h7 with ⟨h8, h9⟩ | ⟨c, h8, h9, h10⟩
        · exact .inl ⟨h8, by simp [Peg.nullable, h9]⟩
        · exact .inr ⟨c, h8, by simp [Peg.last, h9], h10⟩
    · cases h
  | @star_end e1 x h1 ih1 =>
    intro ht p x' hs hp hc
    rcases ih1 ht.1 p x' hs hp hc with ⟨_, h⟩ | ⟨_, _, _, _, _, h, _⟩
    · exact .inr ⟨[], x, x', rfl, rfl, rfl, .star_end h, .inl ⟨rfl, rfl⟩⟩
    · cases h
  | @star_more e1 x y r h1 h2 ih1 ih2 =>
    intro ht p x' hs hp hc
    rcases ih1 ht.1 p x' hs hp hc with ⟨h, _⟩ | ⟨t, y1, y', rfl, rfl, h3, h4, h5⟩
    · cases h
    · cases h3
      rcases h5 with ⟨rfl, hn⟩ | ⟨c, hl, hla, hs'⟩
      · rcases ih2 ht p y' hs hp hc with ⟨rfl, h6⟩ | ⟨t2, z, z', e3, e4, rfl, h6, h7⟩
        · exact .inl ⟨rfl, .star_more h4 h6⟩
        · exact .inr ⟨t2, z, z', e3, e4, rfl, .star_more h4 h6, h7⟩
      · rcases ih2 ht (some c) y' hs' (by simp)
          (fun a d h5 h6 => by cases h5; exact ht.2 c d h6 hla) with ⟨rfl, h6⟩ | ⟨t2, z, z', rfl, rfl, rfl, h6, h7⟩
        · exact .inl ⟨rfl, .star_more h4 h6⟩
        · refine .inr ⟨t ++ t2, z, z', by simp, by simp, rfl, .star_more h4 h6, ?_⟩
          rcases h7 with ⟨rfl, hn2⟩ | ⟨c', h8, h9, h10⟩
          · exact .inr ⟨c, by simpa using hl, hla, hs'⟩
          · exact .inr ⟨c', by simp [List.getLast?_append, h8], h9, h10⟩
  | not_ok | not_fail => exact fun ht => ht.elim

theorem token_alike (R : Nat → Peg ι) {e : Peg ι} (he : e.Token b A) : Alike R (TightB b A) (Spaced b A none) e := by
  intro x x' r hx hf
  rcases token_same hf he none x' hx.1 (fun _ => hx.2) (by simp) with h | ⟨t, y, y', h1, h2, h3, h4, h5⟩
  · exact .inl h
  · refine .inr ⟨t, y, y', h1, h2, h3, h4, ?_⟩
    rcases h5 with ⟨rfl, _⟩ | ⟨c, _, _, h⟩
    · have e1 : x = y := h1
      have e2 : x' = y' := h2
      rw [← e1, ← e2]; exact hx.1
    · exact spaced_none h

theorem lexeme_alike (R : Nat → Peg ι) {e : Peg ι} (he : e.Lexeme b A) :
    Alike R (TightB b A) (Spaced b A none) e := by
  rcases he with he | rfl | rfl
  · exact token_alike R he
  · intro x x' r hx hf
    have hl : x = [] ↔ x' = [] := by
      obtain ⟨h, hn, hn'⟩ := hx
      cases h with
      | tail h1 h2 =>
        have e : ∀ u : List ι, NoBlank b u → (∀ c ∈ u, b c = true) → u = [] := by
          intro u hu h
          cases u with
          | nil => rfl
          | cons c u => have := hu c u rfl; rw [h c (by simp)] at this; cases this
        simp [e _ hn h1, e _ hn' h2]
      | next => simp
    cases x with
    | nil =>
      cases hl.mp rfl
      obtain rfl := hf.unique (.not_ok .cls_end)
      exact .inr ⟨[], [], [], rfl, rfl, rfl, .not_ok .cls_end, hx.1⟩
    | cons c x =>
      obtain rfl := hf.unique (.not_fail (.cls_ok rfl))
      cases x' with
      | nil => cases hl.mpr rfl
      | cons c' x' => exact .inl ⟨rfl, .not_fail (.cls_ok rfl)⟩
  · intro x x' r hx hf
    obtain rfl := hf.unique (.not_fail .eps)
    exact .inl ⟨rfl, .not_fail .eps⟩

theorem blanks_split {u v x y : List ι} {c d : ι} (hu : ∀ a ∈ u, b a = true) (hv : ∀ a ∈ v, b a = true)
    (hc : b c = false) (hd : b d = false) (h : u ++ c :: x = v ++ d :: y) : u = v ∧ c = d ∧ x = y := by
  induction u generalizing v with
  | nil =>
    cases v with
    | nil => cases h; exact ⟨rfl, rfl, rfl⟩
    | cons a v => cases h; rw [hv c (by simp)] at hc; cases hc
  | cons a u ih =>
    cases v with
    | nil => cases h; rw [hu d (by simp)] at hd; cases hd
    | cons a' v =>
      have h1 : a = a' := by injection h
      have h2 : u ++ c :: x = v ++ d :: y := by injection h
      obtain ⟨rfl, h3⟩ := ih (fun a ha => hu a (by simp [ha])) (fun a ha => hv a (by simp [ha])) h2
      exact ⟨by rw [h1], h3⟩

theorem spaced_trans {p} {x y z : List ι} (h1 : Spaced b A p x y) (h2 : Spaced b A p y z) : Spaced b A p x z := by
  induction h1 generalizing z with
  | @tail p u u' hu hu' =>
    cases h2 with
    | tail _ h => exact .tail hu h
    | next h3 _ h5 => rw [hu' _ (by simp)] at h5; cases h5
  | @next p c u u' x x' hu hu' hc hg _ ih =>
    generalize hy : u' ++ c :: x' = y at h2
    cases h2 with
    | tail h _ => rw [h c (by rw [← hy]; simp)] at hc; cases hc
    | next h3 h4 h5 h6 h7 =>
      obtain ⟨rfl, rfl, rfl⟩ := blanks_split hu' h3 hc h5 hy
      refine .next hu h4 hc ?_ (ih h7)
      rcases hg with hg | hg
      · rcases h6 with h6 | h6
        · exact .inl (hg.trans h6)
        · exact .inr h6
      · exact .inr hg

end Blanks

end Space

end Neure
