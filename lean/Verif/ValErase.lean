import Verif.SpaceErase
import Verif.PropsMeans

/-!
# Lemmas for C90: valued grammars with and without their skips

`Space.VSame` relates a valued grammar with skips written out to the one without.  On texts on
which nothing is skipped the two do the same.
-/

namespace Neure

set_option linter.unusedSectionVars false
set_option linter.unusedSimpArgs false

variable {ι β σ : Type} [Item ι] {G : Rules ι β} {p : Pat ι β}
variable {P : List ι → Prop} {R R0 : Nat → Peg ι} {V V0 : Nat → VPeg ι β} {g : List ι → List ι → β}

namespace Space

/-- The two expressions do the same on the texts of `P`. -/
def Same (P : List ι → Prop) (R R0 : Nat → Peg ι) (e e0 : Peg ι) : Prop :=
  ∀ x, P x → ∀ r, Ford R e x r ↔ Ford R0 e0 x r

theorem Same.symm {e e0 : Peg ι} (h : Same P R R0 e e0) : Same P R0 R e0 e := fun x hx r => (h x hx r).symm

/-- Two valued expressions that are the same but for parts that do the same on the texts of `P`. -/
inductive VSame (P : List ι → Prop) (R R0 : Nat → Peg ι) : VPeg ι β → VPeg ι β → Prop where
  | text {W e W0 e0} : Same P R R0 W W0 → Same P R R0 e e0 → VSame P R R0 (.text W e) (.text W0 e0)
  | fail : VSame P R R0 .fail .fail
  | nt (i) : VSame P R R0 (.nt i) (.nt i)
  | pair {a b a0 b0} : VSame P R R0 a a0 → VSame P R R0 b b0 → VSame P R R0 (.pair a b) (.pair a0 b0)
  | after {e a e0 a0} : Same P R R0 e e0 → VSame P R R0 a a0 → VSame P R R0 (.after e a) (.after e0 a0)
  | before {e a e0 a0} : VSame P R R0 a a0 → Same P R R0 e e0 → VSame P R R0 (.before a e) (.before a0 e0)
  | cond {a t b a0 t0 b0} : VSame P R R0 a a0 → Same P R R0 t t0 → VSame P R R0 b b0 →
      VSame P R R0 (.cond a t b) (.cond a0 t0 b0)
  | alt {a b a0 b0} : VSame P R R0 a a0 → VSame P R R0 b b0 → VSame P R R0 (.alt a b) (.alt a0 b0)
  | longest {a b a0 b0} : VSame P R R0 a a0 → VSame P R R0 b b0 → VSame P R R0 (.longest a b) (.longest a0 b0)
  | ite (c) {a b a0 b0} : VSame P R R0 a a0 → VSame P R R0 b b0 → VSame P R R0 (.ite c a b) (.ite c a0 b0)
  | opt {a a0} : VSame P R R0 a a0 → VSame P R R0 (.opt a) (.opt a0)
  | map (f) {a a0} : VSame P R R0 a a0 → VSame P R R0 (.map f a) (.map f a0)
  | bind {a k a0 k0} : VSame P R R0 a a0 → (∀ v, VSame P R R0 (k v) (k0 v)) → VSame P R R0 (.bind a k) (.bind a0 k0)
  | upto (n) {a T a0 T0} : VSame P R R0 a a0 → Same P R R0 T T0 → VSame P R R0 (.upto a n T) (.upto a0 n T0)
  | many (m n) {a T a0 T0} : VSame P R R0 a a0 → Same P R R0 T T0 → VSame P R R0 (.many a m n T) (.many a0 m n T0)
  | seps (keep) {a s T Ts a0 s0 T0 Ts0} : VSame P R R0 a a0 → Same P R R0 s s0 → Same P R R0 T T0 →
      Same P R R0 Ts Ts0 → VSame P R R0 (.seps a s keep T Ts) (.seps a0 s0 keep T0 Ts0)
  | list (keep m) {a s T Ts a0 s0 T0 Ts0} : VSame P R R0 a a0 → Same P R R0 s s0 → Same P R R0 T T0 →
      Same P R R0 Ts Ts0 → VSame P R R0 (.list a s keep m T Ts) (.list a0 s0 keep m T0 Ts0)

theorem VSame.symm {E E0 : VPeg ι β} (h : VSame P R R0 E E0) : VSame P R0 R E0 E := by
  induction h with
  | text h1 h2 => exact .text h1.symm h2.symm
  | fail => exact .fail
  | nt i => exact .nt i
  | pair _ _ i1 i2 => exact .pair i1 i2
  | after h1 _ i2 => exact .after h1.symm i2
  | before _ h2 i1 => exact .before i1 h2.symm
  | cond _ h2 _ i1 i2 => exact .cond i1 h2.symm i2
  | alt _ _ i1 i2 => exact .alt i1 i2
  | longest _ _ i1 i2 => exact .longest i1 i2
  | ite c _ _ i1 i2 => exact .ite c i1 i2
  | opt _ i1 => exact .opt i1
  | map f _ i1 => exact .map f i1
  | bind _ _ i1 i2 => exact .bind i1 i2
  | upto n _ h i1 => exact .upto n i1 h.symm
  | many m n _ h i1 => exact .many m n i1 h.symm
  | seps k _ h1 h2 h3 i1 => exact .seps k i1 h1.symm h2.symm h3.symm
  | list k m _ h1 h2 h3 i1 => exact .list k m i1 h1.symm h2.symm h3.symm

/-- What is left is an end of the text. -/
theorem yields_rest {E : VPeg ι β} {x r} (h : Yields R V g E x r) : ∀ v y, r = some (v, y) → ∃ t, x = t ++ y := by
  have tr : ∀ {x y z : List ι}, (∃ t, x = t ++ y) → (∃ t, y = t ++ z) → ∃ t, x = t ++ z := by
    rintro x y z ⟨t, rfl⟩ ⟨u, rfl⟩; exact ⟨t ++ u, by simp⟩
  induction h with
  | text_ok h1 h2 => rintro _ _ ⟨⟩; exact tr (Attr.ford_suffix h1) (Attr.ford_suffix h2)
  | nt _ ih => exact ih
  | pair_ok _ _ i1 i2 => rintro _ _ ⟨⟩; exact tr (i1 _ _ rfl) (i2 _ _ rfl)
  | after_ok h1 _ ih => intro v y h; exact tr (Attr.ford_suffix h1) (ih _ _ h)
  | before_ok _ h2 i1 => rintro _ _ ⟨⟩; exact tr (i1 _ _ rfl) (Attr.ford_suffix h2)
  | cond_yes _ h2 _ i1 i3 => rintro _ _ ⟨⟩; exact tr (i1 _ _ rfl) (tr (Attr.ford_suffix h2) (i3 _ _ rfl))
  | cond_no _ _ i1 => rintro _ _ ⟨⟩; exact i1 _ _ rfl
  | alt_1 _ i1 => rintro _ _ ⟨⟩; exact i1 _ _ rfl
  | alt_2 _ _ _ i2 => exact i2
  | longest_l _ _ _ i1 _ => rintro _ _ ⟨⟩; exact i1 _ _ rfl
  | longest_r _ _ _ _ i2 => rintro _ _ ⟨⟩; exact i2 _ _ rfl
  | longest_a _ _ i1 _ => rintro _ _ ⟨⟩; exact i1 _ _ rfl
  | longest_b _ _ _ i2 => exact i2
  | ite _ ih => exact ih
  | opt_some _ i1 => rintro _ _ ⟨⟩; exact i1 _ _ rfl
  | opt_none _ _ => rintro _ _ ⟨⟩; exact ⟨[], rfl⟩
  | map_ok _ _ i1 => rintro _ _ ⟨⟩; exact i1 _ _ rfl
  | bind_ok _ _ i1 i2 => rintro _ _ ⟨⟩; exact tr (i1 _ _ rfl) (i2 _ _ rfl)
  | upto_full => rintro _ _ ⟨⟩; exact ⟨[], rfl⟩
  | upto_stop _ _ h _ => rintro _ _ ⟨⟩; exact Attr.ford_suffix h
  | upto_more _ _ _ i1 i2 => rintro _ _ ⟨⟩; exact tr (i1 _ _ rfl) (i2 _ _ rfl)
  | many_ok _ _ i1 => rintro _ _ ⟨⟩; exact i1 _ _ rfl
  | seps_stop _ h _ => rintro _ _ ⟨⟩; exact Attr.ford_suffix h
  | seps_last _ _ h3 i1 => rintro _ _ ⟨⟩; exact tr (i1 _ _ rfl) (Attr.ford_suffix h3)
  | seps_more _ h2 _ i1 i3 => rintro _ _ ⟨⟩; exact tr (i1 _ _ rfl) (tr (Attr.ford_suffix h2) (i3 _ _ rfl))
  | list_ok _ _ i1 => rintro _ _ ⟨⟩; exact i1 _ _ rfl
  | _ => rintro _ _ ⟨⟩

theorem yields_same (hP : ∀ t y, P (t ++ y) → P y) (hV : ∀ i, VSame P R R0 (V i) (V0 i)) {E : VPeg ι β} {x r}
    (h : Yields R V g E x r) : P x → ∀ E0, VSame P R R0 E E0 → Yields R0 V0 g E0 x r := by
  have fs : ∀ {e : Peg ι} {x y}, Ford R e x (some y) → P x → P y := by
    intro e x y h hx
    obtain ⟨t, rfl⟩ := Attr.ford_suffix h
    exact hP t y hx
  have ys : ∀ {E : VPeg ι β} {x y v}, Yields R V g E x (some (v, y)) → P x → P y := by
    intro E x y v h hx
    obtain ⟨t, rfl⟩ := yields_rest h _ _ rfl
    exact hP t y hx
  induction h with
  | text_ok h1 h2 =>
    intro hx E0 h
    cases h with
    | text hW he => exact .text_ok ((hW _ hx _).mp h1) ((he _ (fs h1 hx) _).mp h2)
  | @text_no W e x h1 =>
    intro hx E0 h
    cases h with
    | text hW he =>
      refine .text_no ?_
      generalize hs : Peg.seq W e = s at h1
      generalize hr : (none : Option (List ι)) = r at h1
      cases h1 with
      | seq_ok h2 h3 => cases hs; cases hr; exact .seq_ok ((hW _ hx _).mp h2) ((he _ (fs h2 hx) _).mp h3)
      | seq_fail h2 => cases hs; exact .seq_fail ((hW _ hx _).mp h2)
      | _ => first | cases hs | cases hr
  | fail => intro hx E0 h; cases h; exact .fail
  | nt _ ih => intro hx E0 h; cases h; exact .nt (ih hx _ (hV _))
  | pair_ok h1 _ i1 i2 => intro hx E0 h; cases h with | pair ha hb => exact .pair_ok (i1 hx _ ha) (i2 (ys h1 hx) _ hb)
  | pair_no1 _ i1 => intro hx E0 h; cases h with | pair ha hb => exact .pair_no1 (i1 hx _ ha)
  | pair_no2 h1 _ i1 i2 => intro hx E0 h; cases h with | pair ha hb => exact .pair_no2 (i1 hx _ ha) (i2 (ys h1 hx) _ hb)
  | after_ok h1 _ i2 => intro hx E0 h; cases h with | after he ha => exact .after_ok ((he _ hx _).mp h1) (i2 (fs h1 hx) _ ha)
  | after_no h1 => intro hx E0 h; cases h with | after he ha => exact .after_no ((he _ hx _).mp h1)
  | before_ok h1 h2 i1 =>
    intro hx E0 h; cases h with | before ha he => exact .before_ok (i1 hx _ ha) ((he _ (ys h1 hx) _).mp h2)
  | before_no1 _ i1 => intro hx E0 h; cases h with | before ha he => exact .before_no1 (i1 hx _ ha)
  | before_no2 h1 h2 i1 =>
    intro hx E0 h; cases h with | before ha he => exact .before_no2 (i1 hx _ ha) ((he _ (ys h1 hx) _).mp h2)
  | cond_yes h1 h2 _ i1 i3 =>
    intro hx E0 h
    cases h with
    | cond ha ht hb => exact .cond_yes (i1 hx _ ha) ((ht _ (ys h1 hx) _).mp h2) (i3 (fs h2 (ys h1 hx)) _ hb)
  | cond_no h1 h2 i1 =>
    intro hx E0 h; cases h with | cond ha ht hb => exact .cond_no (i1 hx _ ha) ((ht _ (ys h1 hx) _).mp h2)
  | cond_fail1 _ i1 => intro hx E0 h; cases h with | cond ha ht hb => exact .cond_fail1 (i1 hx _ ha)
  | cond_fail2 h1 h2 _ i1 i3 =>
    intro hx E0 h
    cases h with
    | cond ha ht hb => exact .cond_fail2 (i1 hx _ ha) ((ht _ (ys h1 hx) _).mp h2) (i3 (fs h2 (ys h1 hx)) _ hb)
  | alt_1 _ i1 => intro hx E0 h; cases h with | alt ha hb => exact .alt_1 (i1 hx _ ha)
  | alt_2 _ _ i1 i2 => intro hx E0 h; cases h with | alt ha hb => exact .alt_2 (i1 hx _ ha) (i2 hx _ hb)
  | longest_l _ _ hl i1 i2 =>
    intro hx E0 h; cases h with | longest ha hb => exact .longest_l (i1 hx _ ha) (i2 hx _ hb) hl
  | longest_r _ _ hl i1 i2 =>
    intro hx E0 h; cases h with | longest ha hb => exact .longest_r (i1 hx _ ha) (i2 hx _ hb) hl
  | longest_a _ _ i1 i2 => intro hx E0 h; cases h with | longest ha hb => exact .longest_a (i1 hx _ ha) (i2 hx _ hb)
  | longest_b _ _ i1 i2 => intro hx E0 h; cases h with | longest ha hb => exact .longest_b (i1 hx _ ha) (i2 hx _ hb)
  | @ite c a b x r _ ih =>
    intro hx E0 h
    cases h with
    | ite _ ha hb =>
      refine .ite (ih hx _ ?_)
      cases c x with
      | true => exact ha
      | false => exact hb
  | opt_some _ i1 => intro hx E0 h; cases h with | opt ha => exact .opt_some (i1 hx _ ha)
  | opt_none _ i1 => intro hx E0 h; cases h with | opt ha => exact .opt_none (i1 hx _ ha)
  | map_ok _ hf i1 => intro hx E0 h; cases h with | map _ ha => exact .map_ok (i1 hx _ ha) hf
  | map_no _ hf i1 => intro hx E0 h; cases h with | map _ ha => exact .map_no (i1 hx _ ha) hf
  | map_fail _ i1 => intro hx E0 h; cases h with | map _ ha => exact .map_fail (i1 hx _ ha)
  | bind_ok h1 _ i1 i2 => intro hx E0 h; cases h with | bind ha hk => exact .bind_ok (i1 hx _ ha) (i2 (ys h1 hx) _ (hk _))
  | bind_no1 _ i1 => intro hx E0 h; cases h with | bind ha hk => exact .bind_no1 (i1 hx _ ha)
  | bind_no2 h1 _ i1 i2 => intro hx E0 h; cases h with | bind ha hk => exact .bind_no2 (i1 hx _ ha) (i2 (ys h1 hx) _ (hk _))
  | upto_full => intro hx E0 h; cases h with | upto _ ha hT => exact .upto_full
  | upto_stop hn _ h2 i1 =>
    intro hx E0 h; cases h with | upto _ ha hT => exact .upto_stop hn (i1 hx _ ha) ((hT _ hx _).mp h2)
  | upto_more hn h1 _ i1 i2 =>
    intro hx E0 h
    cases h with | upto _ ha hT => exact .upto_more hn (i1 hx _ ha) (i2 (ys h1 hx) _ (.upto _ ha hT))
  | many_ok _ hl i1 => intro hx E0 h; cases h with | many _ _ ha hT => exact .many_ok (i1 hx _ (.upto _ ha hT)) hl
  | many_no _ hl i1 => intro hx E0 h; cases h with | many _ _ ha hT => exact .many_no (i1 hx _ (.upto _ ha hT)) hl
  | seps_stop _ h2 i1 =>
    intro hx E0 h; cases h with | seps _ ha hs hT hTs => exact .seps_stop (i1 hx _ ha) ((hT _ hx _).mp h2)
  | seps_last h1 h2 h3 i1 =>
    intro hx E0 h
    cases h with
    | seps _ ha hs hT hTs =>
      exact .seps_last (i1 hx _ ha) ((hs _ (ys h1 hx) _).mp h2) ((hTs _ (ys h1 hx) _).mp h3)
  | seps_more h1 h2 _ i1 i3 =>
    intro hx E0 h
    cases h with
    | seps _ ha hs hT hTs =>
      exact .seps_more (i1 hx _ ha) ((hs _ (ys h1 hx) _).mp h2) (i3 (fs h2 (ys h1 hx)) _ (.seps _ ha hs hT hTs))
  | list_ok _ hl i1 =>
    intro hx E0 h; cases h with | list _ _ ha hs hT hTs => exact .list_ok (i1 hx _ (.seps _ ha hs hT hTs)) hl
  | list_no _ hl i1 =>
    intro hx E0 h; cases h with | list _ _ ha hs hT hTs => exact .list_no (i1 hx _ (.seps _ ha hs hT hTs)) hl

/-! ## The reading without the skips -/

variable {W : Peg ι}

theorem same_erased (hW : ∀ x, P x → Ford R W x (some x)) (hP : ∀ t y, P (t ++ y) → P y)
    (hR : ∀ i, Erased W (R i) (R0 i)) {e e0 : Peg ι} (h : Erased W e e0) : Same P R R0 e e0 :=
  fun _ hx _ => ⟨fun hf => ford_erased hW hP hR hf hx _ h, fun hf => erased_ford hW hP hR hf hx _ h⟩

theorem same_eps (hW : ∀ x, P x → Ford R W x (some x)) : Same P R R0 W .eps := by
  intro x hx r
  constructor
  · intro h
    cases h.unique (hW x hx)
    exact .eps
  · intro h
    cases h
    exact hW x hx

theorem same_opt {e e0 : Peg ι} (h : Same P R R0 e e0) : Same P R R0 (.opt e) (.opt e0) := by
  have one : ∀ {R R0 : Nat → Peg ι} {e e0 : Peg ι}, Same P R R0 e e0 → ∀ x, P x → ∀ r, Ford R (.opt e) x r → Ford R0 (.opt e0) x r := by
    intro R R0 e e0 h x hx r hf
    cases hf with
    | alt_1 h1 => exact .alt_1 ((h _ hx _).mp h1)
    | alt_2 h1 h2 => cases h2; exact .alt_2 ((h _ hx _).mp h1) .eps
  exact fun x hx r => ⟨one h x hx r, one h.symm x hx r⟩

theorem same_noNt {e : Peg ι} (h : e.NoNt) : Same P R R0 e e :=
  fun _ _ _ => ⟨fun hf => Skip.ford_noNt hf h, fun hf => Skip.ford_noNt hf h⟩

theorem tail_plain (hW : ∀ x, P x → Ford R W x (some x)) {T : Peg ι} (h : Tail (.skipping W) G p T) :
    ∃ T0, Tail .plain G p T0 ∧ Same P R R0 T T0 := by
  induction h with
  | leaf hl => exact ⟨_, .leaf hl, same_opt (same_eps hW)⟩
  | guarded hg => exact ⟨_, .guarded hg, same_noNt trivial⟩
  | opt => exact ⟨_, .opt, same_noNt trivial⟩
  | dthen => exact ⟨_, .dthen, same_noNt trivial⟩
  | map hf _ ih => obtain ⟨T0, h1, h2⟩ := ih; exact ⟨T0, .map hf h1, h2⟩
  | @mapLeaf p f e hl hq ht =>
    have hn := noNt_leaf ht.1 ht.2
    refine ⟨_, .mapLeaf hl hq ht.2, ?_⟩
    have one : ∀ {R R0 : Nat → Peg ι} {W W0 : Peg ι}, Same P R R0 W W0 → ∀ x, P x → ∀ r,
        Ford R (.alt (.seq W e) (.opt W)) x r → Ford R0 (.alt (.seq W0 e) (.opt W0)) x r := by
      intro R R0 W W0 h x hx r hf
      cases hf with
      | alt_1 h1 =>
        cases h1 with
        | seq_ok h2 h3 => exact .alt_1 (.seq_ok ((h _ hx _).mp h2) (Skip.ford_noNt h3 hn))
      | alt_2 h1 h2 =>
        refine .alt_2 ?_ ((same_opt h _ hx _).mp h2)
        cases h1 with
        | seq_ok h2 h3 => exact .seq_ok ((h _ hx _).mp h2) (Skip.ford_noNt h3 hn)
        | seq_fail h2 => exact .seq_fail ((h _ hx _).mp h2)
    exact fun x hx r => ⟨one (same_eps hW) x hx r, one (same_eps hW).symm x hx r⟩
  | cell hi _ ih => obtain ⟨T0, h1, h2⟩ := ih; exact ⟨T0, .cell hi h1, h2⟩
  | cell_none hi => exact ⟨_, .cell_none hi, same_noNt trivial⟩

theorem delim_plain (hW : ∀ x, P x → Ford R W x (some x)) (hP : ∀ t y, P (t ++ y) → P y)
    (hR : ∀ i, Erased W (R i) (R0 i)) {e : Peg ι} (h : (Reading.skipping W : Reading ι β).delim p e) :
    ∃ e0, AsPeg p e0 ∧ Same P R R0 e e0 := by
  obtain ⟨e', h1, rfl⟩ := h
  obtain ⟨e0, h2, h3⟩ := erased_as h1
  exact ⟨e0, h2, same_erased hW hP hR (.drop h3)⟩

theorem val_plain (hW : ∀ x, P x → Ford R W x (some x)) (hP : ∀ t y, P (t ++ y) → P y)
    (hR : ∀ i, Erased W (R i) (R0 i)) {E : VPeg ι β} (h : AsVal (.skipping W) G p E) :
    ∃ E0, AsVal .plain G p E0 ∧ VSame P R R0 E E0 := by
  have hw : Same P R R0 W .eps := same_eps hW
  induction h with
  | leaf hl hq ht => exact ⟨_, .leaf hl hq ht.2, .text hw (same_noNt (noNt_leaf ht.1 ht.2))⟩
  | pat ht => exact ⟨_, .pat ht.2, .text hw (same_noNt (noNt_leaf ht.1 ht.2))⟩
  | cell i => exact ⟨_, .cell i, .nt i⟩
  | thn _ _ i1 i2 => obtain ⟨_, h1, h2⟩ := i1; obtain ⟨_, h3, h4⟩ := i2; exact ⟨_, .thn h1 h3, .pair h2 h4⟩
  | pre hs _ i1 =>
    obtain ⟨_, h1, h2⟩ := i1; obtain ⟨_, h3, h4⟩ := delim_plain hW hP hR hs; exact ⟨_, .pre h3 h1, .after h4 h2⟩
  | suf _ hs i1 =>
    obtain ⟨_, h1, h2⟩ := i1; obtain ⟨_, h3, h4⟩ := delim_plain hW hP hR hs; exact ⟨_, .suf h1 h3, .before h2 h4⟩
  | enclose hs _ ht i1 =>
    obtain ⟨_, h1, h2⟩ := i1; obtain ⟨_, h3, h4⟩ := delim_plain hW hP hR hs; obtain ⟨_, h5, h6⟩ := delim_plain hW hP hR ht
    exact ⟨_, .enclose h3 h1 h5, .after h4 (.before h2 h6)⟩
  | sepOnce _ hs _ i1 i2 =>
    obtain ⟨_, h1, h2⟩ := i1; obtain ⟨_, h3, h4⟩ := delim_plain hW hP hR hs; obtain ⟨_, h5, h6⟩ := i2
    exact ⟨_, .sepOnce h1 h3 h5, .pair h2 (.after h4 h6)⟩
  | ifThen _ hs _ i1 i2 =>
    obtain ⟨_, h1, h2⟩ := i1; obtain ⟨_, h3, h4⟩ := delim_plain hW hP hR hs; obtain ⟨_, h5, h6⟩ := i2
    exact ⟨_, .ifThen h1 h3 h5, .cond h2 h4 h6⟩
  | or _ _ i1 i2 => obtain ⟨_, h1, h2⟩ := i1; obtain ⟨_, h3, h4⟩ := i2; exact ⟨_, .or h1 h3, .alt h2 h4⟩
  | longest _ _ i1 i2 => obtain ⟨_, h1, h2⟩ := i1; obtain ⟨_, h3, h4⟩ := i2; exact ⟨_, .longest h1 h3, .longest h2 h4⟩
  | branch c hc _ _ i1 i2 =>
    obtain ⟨_, h1, h2⟩ := i1; obtain ⟨_, h3, h4⟩ := i2; exact ⟨_, .branch c hc h1 h3, .ite c h2 h4⟩
  | opt _ i1 => obtain ⟨_, h1, h2⟩ := i1; exact ⟨_, .opt h1, .opt h2⟩
  | choice_nil er => exact ⟨_, .choice_nil er, .fail⟩
  | choice_cons er _ _ i1 i2 =>
    obtain ⟨_, h1, h2⟩ := i1; obtain ⟨_, h3, h4⟩ := i2; exact ⟨_, .choice_cons er h1 h3, .alt h2 h4⟩
  | choice_pair er _ _ i1 i2 =>
    obtain ⟨_, h1, h2⟩ := i1; obtain ⟨_, h3, h4⟩ := i2; exact ⟨_, .choice_pair er h1 h3, .alt (.map _ h2) h4⟩
  | map f' hf hf' _ i1 => obtain ⟨_, h1, h2⟩ := i1; exact ⟨_, .map f' hf hf' h1, .map f' h2⟩
  | dthen q k hf _ _ i1 i2 =>
    obtain ⟨_, h1, h2⟩ := i1
    exact ⟨_, .dthen q (fun v => (i2 v).choose) hf h1 (fun v => (i2 v).choose_spec.1),
      .bind h2 fun v => (i2 v).choose_spec.2⟩
  | rep r m n _ ht hc i1 =>
    obtain ⟨_, h1, h2⟩ := i1; obtain ⟨_, h3, h4⟩ := tail_plain hW ht
    exact ⟨_, .rep r m n h1 h3 hc, .many m n h2 h4⟩
  | collect m _ ht i1 =>
    obtain ⟨_, h1, h2⟩ := i1; obtain ⟨_, h3, h4⟩ := tail_plain hW ht
    exact ⟨_, .collect m h1 h3, .many m none h2 h4⟩
  | sep keep m _ ht hs i1 =>
    obtain ⟨_, h1, h2⟩ := i1; obtain ⟨_, h3, h4⟩ := tail_plain hW ht; obtain ⟨_, h5, h6⟩ := delim_plain hW hP hR hs
    exact ⟨_, .sep keep m h1 h3 h5, .list keep m h2 h6 h4 (same_opt hw)⟩

theorem rules_plain (hW : ∀ x, P x → Ford R W x (some x)) (hP : ∀ t y, P (t ++ y) → P y)
    (hR : ∀ i, Erased W (R i) (R0 i)) (hV : RulesAsVal (.skipping W) G V) :
    ∃ V0, RulesAsVal .plain G V0 ∧ ∀ i, VSame P R R0 (V i) (V0 i) := by
  have : ∀ i, ∃ E, ((∃ q, G i = some q ∧ AsVal .plain G q E) ∨ (G i = none ∧ E = .fail)) ∧ VSame P R R0 (V i) E := by
    intro i
    rcases hV i with ⟨q, hq, ha⟩ | ⟨hq, he⟩
    · obtain ⟨E, he, h⟩ := val_plain hW hP hR ha; exact ⟨E, .inl ⟨q, hq, he⟩, h⟩
    · exact ⟨_, .inr ⟨hq, rfl⟩, by rw [he]; exact .fail⟩
  exact ⟨fun i => (this i).choose, fun i => (this i).choose_spec.1, fun i => (this i).choose_spec.2⟩

end Space
end Neure
