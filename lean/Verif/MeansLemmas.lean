import Verif.MeansSpec
import Verif.PropsCfg
import Verif.PropsAttr
/-! # Derivations with values and the valued parsing expressions: lemmas for C83 -/

namespace Neure

set_option linter.unusedSectionVars false

namespace Means

variable {ι β : Type} {R : Nat → Peg ι} {V : Nat → VPeg ι β} {g : List ι → List ι → β}
  {Q : VPeg ι β → Prop} {P : Peg ι → Option ι → Prop} {F : VPeg ι β → Option ι → Prop} {E a b : VPeg ι β}

/-- What soundness says of a result. -/
def Sound (R : Nat → Peg ι) (V : Nat → VPeg ι β) (g : List ι → List ι → β) (Q : VPeg ι β → Prop) :
    VPeg ι β → List ι → Option (Val β × List ι) → Prop
  | _, _, none => True
  | .upto a n T, x, some (v, y) => Q a → EndsClean R V g a T → ∃ w vs, x = w ++ y ∧ v = Val.list vs ∧
      ∀ m, m ≤ vs.length → Means R V g (.many a m n T) w y v
  | .seps a s keep T Ts, x, some (v, y) => Q a → EndsClean R V g a T →
      (∀ x z, Ford R s x none → Ford R Ts x (some z) → z = x) → ∃ w vs, x = w ++ y ∧ v = Val.list vs ∧
      ∀ m, m ≤ vs.length → Means R V g (.list a s keep m T Ts) w y v
  | E, x, some (v, y) => Q E → ∃ w, x = w ++ y ∧ Means R V g E w y v

theorem Sound.out (hQ : Steady R V g Q) {x v y} (h : Sound R V g Q E x (some (v, y))) (hE : Q E) :
    ∃ w, x = w ++ y ∧ Means R V g E w y v := by
  cases E with
  | upto => exact absurd hE hQ.upto
  | seps => exact absurd hE hQ.seps
  | _ => exact h hE

theorem sound' (hQ : Steady R V g Q) {x r} (h : Yields R V g E x r) : Sound R V g Q E x r := by
  induction h with
  | @text_ok W e x t y hw he =>
    intro _
    obtain ⟨u, h1, h2⟩ := ford_derives hw
    obtain ⟨t', h3, h4⟩ := ford_derives he
    cases List.append_cancel_right h3
    exact ⟨u ++ t, by rw [h1, List.append_assoc], .text h2 h4⟩
  | text_no | fail | pair_no1 | pair_no2 | after_no | before_no1 | before_no2 | cond_fail1 | cond_fail2 | map_no
  | map_fail | bind_no1 | bind_no2 | many_no | list_no => trivial
  | @nt i x r _ ih =>
    rcases r with _ | ⟨v, y⟩
    · trivial
    · intro hE
      obtain ⟨w, h1, h2⟩ := ih.out hQ (hQ.nt hE)
      exact ⟨w, h1, .nt h2⟩
  | pair_ok _ _ ih1 ih2 =>
    intro hE
    obtain ⟨w, rfl, h2⟩ := ih1.out hQ (hQ.pair hE).1
    obtain ⟨u, rfl, h4⟩ := ih2.out hQ (hQ.pair hE).2
    exact ⟨w ++ u, by rw [List.append_assoc], .pair h2 h4⟩
  | @after_ok e a x y r he _ ih =>
    rcases r with _ | ⟨v, y⟩
    · trivial
    · intro hE
      obtain ⟨u, rfl, h2⟩ := ford_derives he
      obtain ⟨w, rfl, h4⟩ := ih.out hQ (hQ.after hE)
      exact ⟨u ++ w, by rw [List.append_assoc], .after h2 h4⟩
  | before_ok _ he ih =>
    intro hE
    obtain ⟨w, rfl, h2⟩ := ih.out hQ (hQ.before hE)
    obtain ⟨u, rfl, h4⟩ := ford_derives he
    exact ⟨w ++ u, by rw [List.append_assoc], .before h2 h4⟩
  | cond_yes _ ht _ ih1 ih2 =>
    intro hE
    obtain ⟨w, rfl, h2⟩ := ih1.out hQ (hQ.cond hE).1
    obtain ⟨u, rfl, h4⟩ := ford_derives ht
    obtain ⟨z, rfl, h6⟩ := ih2.out hQ (hQ.cond hE).2
    exact ⟨w ++ (u ++ z), by simp only [List.append_assoc], .yes (by rw [List.append_assoc]; exact h2) h4 h6⟩
  | cond_no _ _ ih =>
    intro hE
    obtain ⟨w, h1, h2⟩ := ih.out hQ (hQ.cond hE).1
    exact ⟨w, h1, .no h2⟩
  | alt_1 _ ih =>
    intro hE
    obtain ⟨w, h1, h2⟩ := ih.out hQ (hQ.alt hE).1
    exact ⟨w, h1, .left h2⟩
  | @alt_2 a b x r _ _ _ ih =>
    rcases r with _ | ⟨v, y⟩
    · trivial
    · intro hE
      obtain ⟨w, h1, h2⟩ := ih.out hQ (hQ.alt hE).2
      exact ⟨w, h1, .right h2⟩
  | longest_l _ _ _ ih _ | longest_a _ _ ih _ =>
    intro hE
    obtain ⟨w, h1, h2⟩ := ih.out hQ (hQ.longest hE).1
    exact ⟨w, h1, .long_left h2⟩
  | longest_r _ _ _ _ ih =>
    intro hE
    obtain ⟨w, h1, h2⟩ := ih.out hQ (hQ.longest hE).2
    exact ⟨w, h1, .long_right h2⟩
  | @longest_b a b x r _ _ _ ih =>
    rcases r with _ | ⟨v, y⟩
    · trivial
    · intro hE
      obtain ⟨w, h1, h2⟩ := ih.out hQ (hQ.longest hE).2
      exact ⟨w, h1, .long_right h2⟩
  | @ite c a b x r _ ih =>
    rcases r with _ | ⟨v, y⟩
    · trivial
    · intro hE
      obtain ⟨w, rfl, h2⟩ := ih.out hQ (by
        split
        · exact (hQ.ite hE).1
        · exact (hQ.ite hE).2)
      exact ⟨w, rfl, .ite h2⟩
  | opt_some _ ih =>
    intro hE
    obtain ⟨w, h1, h2⟩ := ih.out hQ (hQ.opt hE)
    exact ⟨w, h1, .one h2⟩
  | opt_none => exact fun _ => ⟨[], rfl, .zero⟩
  | map_ok _ hf ih =>
    intro hE
    obtain ⟨w, h1, h2⟩ := ih.out hQ (hQ.map hE)
    exact ⟨w, h1, .map h2 hf⟩
  | bind_ok _ _ ih1 ih2 =>
    intro hE
    obtain ⟨w, rfl, h2⟩ := ih1.out hQ (hQ.bind hE).1
    obtain ⟨u, rfl, h4⟩ := ih2.out hQ ((hQ.bind hE).2 _)
    exact ⟨w ++ u, by rw [List.append_assoc], .bind h2 h4⟩
  | upto_full =>
    refine fun _ _ => ⟨[], [], rfl, rfl, fun m hm => ?_⟩
    cases Nat.le_zero.mp hm
    exact .many_stop
  | upto_stop _ ha hT _ =>
    intro _ hc
    cases hc _ _ ha hT
    refine ⟨[], [], rfl, rfl, fun m hm => ?_⟩
    cases Nat.le_zero.mp hm
    exact .many_stop
  | upto_more hn _ _ ih1 ih2 =>
    intro hE hc
    obtain ⟨w, rfl, h2⟩ := ih1.out hQ hE
    obtain ⟨u, vs, rfl, rfl, h4⟩ := ih2 hE hc
    refine ⟨w ++ u, _ :: vs, by rw [List.append_assoc], rfl, fun m hm => .many_more hn h2 (h4 _ ?_)⟩
    simp only [List.length_cons] at hm
    omega
  | many_ok _ hm ih =>
    intro hE
    obtain ⟨w, vs, h1, h2, h3⟩ := ih (hQ.many hE).1 (hQ.many hE).2
    cases Attr.list_inj h2
    exact ⟨w, h1, h3 _ hm⟩
  | seps_stop ha hT _ =>
    intro _ hc _
    cases hc _ _ ha hT
    refine ⟨[], [], rfl, rfl, fun m hm => ?_⟩
    cases Nat.le_zero.mp hm
    exact .list_stop
  | @seps_last a s keep T Ts x v y z _ hs hT ih =>
    intro hE _ hc
    cases hc _ _ hs hT
    obtain ⟨w, h1, h2⟩ := ih.out hQ hE
    refine ⟨w, if keep then [v] else [], h1, by cases keep <;> rfl, fun m hm => .list_last ?_ h2⟩
    cases keep <;> exact hm
  | seps_more _ hs _ ih1 ih2 =>
    intro hE hc hc'
    obtain ⟨w, rfl, h2⟩ := ih1.out hQ hE
    obtain ⟨u, rfl, h3⟩ := ford_derives hs
    obtain ⟨z, vs, rfl, rfl, h4⟩ := ih2 hE hc hc'
    refine ⟨w ++ (u ++ z), _ :: vs, by simp only [List.append_assoc], rfl, fun m hm =>
      .list_more (by rw [List.append_assoc]; exact h2) h3 (h4 _ ?_)⟩
    simp only [List.length_cons] at hm
    omega
  | list_ok _ hm ih =>
    intro hE
    obtain ⟨w, vs, h1, h2, h3⟩ := ih (hQ.list hE).1 (hQ.list hE).2.1 (hQ.list hE).2.2
    cases Attr.list_inj h2
    exact ⟨w, h1, h3 _ hm⟩

/-- What is constructed is the value of a derivation of the text consumed. -/
theorem sound (hQ : Steady R V g Q) (hE : Q E) {x v y} (h : Yields R V g E x (some (v, y))) :
    ∃ w, x = w ++ y ∧ Means R V g E w y v := (sound' hQ h).out hQ hE

/-- What can begin neither with the next item nor be empty fails. -/
theorem refused (hQ : Steady R V g Q) (hE : Q E) (hh : Answers R V g E) (hn : ¬ Vacant R V g E) {x : List ι}
    (h : ∀ c z, x = c :: z → ¬ Begins R V g E c) : Yields R V g E x none := by
  obtain ⟨r, hr⟩ := hh x
  rcases r with _ | ⟨v, y⟩
  · exact hr
  · obtain ⟨w, rfl, hw⟩ := sound hQ hE hr
    cases w with
    | nil => exact absurd ⟨_, _, hw⟩ hn
    | cons c w => exact absurd ⟨w, _, _, hw⟩ (h c (w ++ y) rfl)

/-- The same before something that does not begin like it. -/
theorem refused_before (hQ : Steady R V g Q) (hE : Q E) (hh : Answers R V g E) (hn : ¬ Vacant R V g E) {y : List ι}
    (h : ∀ x, Begins R V g E x → y.head? ≠ some x) : Yields R V g E y none :=
  refused hQ hE hh hn fun c z hc hs => h c hs (by rw [hc]; rfl)

theorem fails_before {t : Peg ι} (hh : Halts R t) (hn : ¬ Nullable R t) {y : List ι}
    (h : ∀ x, Starts R t x → y.head? ≠ some x) : Ford R t y none :=
  fails_of hh hn fun c z hc hs => h c hs (by rw [hc]; rfl)

theorem many_begins {m n T c w y v} (hn : ¬ Vacant R V g a) (h : Means R V g (.many a m n T) (c :: w) y v) :
    Begins R V g a c := by
  generalize hw : c :: w = u at h
  cases h with
  | many_stop => cases hw
  | @many_more _ _ _ _ w' u' _ v' l _ ha _ =>
    cases w' with
    | nil => exact absurd ⟨_, _, ha⟩ hn
    | cons c' w' => cases hw; exact ⟨_, _, _, ha⟩

theorem list_begins {s keep m T Ts c w y v} (hn : ¬ Vacant R V g a)
    (h : Means R V g (.list a s keep m T Ts) (c :: w) y v) : Begins R V g a c := by
  generalize hw : c :: w = u at h
  cases h with
  | list_stop => cases hw
  | list_last _ ha => cases hw; exact ⟨_, _, _, ha⟩
  | @list_more _ _ _ _ _ _ w' u' z _ v' l ha _ _ =>
    cases w' with
    | nil => exact absurd ⟨_, _, ha⟩ hn
    | cons c' w' => cases hw; exact ⟨_, _, _, ha⟩

/-- Where one item of lookahead decides, every text with a value is constructed, with this value. -/
theorem complete (hQ : Steady R V g Q) (hP : Predictive R P) (hF : Foreseen R V g P F) {w y v}
    (h : Means R V g E w y v) : Q E → F E y.head? → Yields R V g E (w ++ y) (some (v, y)) := by
  induction h with
  | @text W e u t y hu ht =>
    intro _ hf
    have hp := hF.text hf
    have h2 := derives_ford hP ht y (hP.second hp)
    have h1 := derives_ford hP hu (t ++ y) (by
      cases t with
      | nil => exact hP.first' hp ht
      | cons c t => exact hP.first hp ⟨t, ht⟩)
    rw [List.append_assoc]
    exact .text_ok h1 h2
  | nt _ ih => exact fun hq hf => .nt (ih (hQ.nt hq) (hF.nt hf))
  | @pair a b w u y v v' _ hb ih1 ih2 =>
    intro hq hf
    rw [List.append_assoc]
    refine .pair_ok (ih1 (hQ.pair hq).1 ?_) (ih2 (hQ.pair hq).2 (hF.second hf))
    cases u with
    | nil => exact hF.first' hf ⟨_, _, hb⟩
    | cons c u => exact hF.first hf ⟨u, _, _, hb⟩
  | @after e a u w y v he ha ih =>
    intro hq hf
    rw [List.append_assoc]
    refine .after_ok (derives_ford hP he _ ?_) (ih (hQ.after hq) (hF.inner hf))
    cases w with
    | nil => exact hF.after' hf ⟨_, _, ha⟩
    | cons c w => exact hF.after hf ⟨w, _, _, ha⟩
  | @before a e w u y v _ he ih =>
    intro hq hf
    rw [List.append_assoc]
    refine .before_ok (ih (hQ.before hq) ?_) (derives_ford hP he _ (hF.delim hf))
    cases u with
    | nil => exact hF.before' hf he
    | cons c u => exact hF.before hf ⟨u, he⟩
  | @yes a t b w u z y v v' _ ht hb ih1 ih2 =>
    intro hq hf
    have ht' : Ford R t (u ++ (z ++ y)) (some (z ++ y)) := by
      refine derives_ford hP ht _ ?_
      cases z with
      | nil => exact hF.test_then' hf ⟨_, _, hb⟩
      | cons c z => exact hF.test_then hf ⟨z, _, _, hb⟩
    have h1 := ih1 (hQ.cond hq).1 (by
      cases u with
      | nil => exact absurd ht (hF.test hf).2.1
      | cons c u => exact hF.cond_test hf ⟨u, ht⟩)
    rw [List.append_assoc] at h1
    rw [List.append_assoc, List.append_assoc]
    exact .cond_yes h1 ht' (ih2 (hQ.cond hq).2 (hF.cond_then hf))
  | no _ ih =>
    intro hq hf
    obtain ⟨h1, h2, h3⟩ := hF.test hf
    exact .cond_no (ih (hQ.cond hq).1 (hF.cond_none hf)) (fails_before h1 h2 h3)
  | left _ ih => exact fun hq hf => .alt_1 (ih (hQ.alt hq).1 (hF.left hf))
  | @right a b w y v hb ih =>
    intro hq hf
    obtain ⟨h1, h2, h3⟩ := hF.choice hf
    refine .alt_2 (refused hQ (hQ.alt hq).1 h1 h2 fun c z hc hs => ?_) (ih (hQ.alt hq).2 (hF.right hf))
    cases w with
    | nil =>
      have : y = c :: z := hc
      exact (h3 c hs).2 ⟨_, _, hb⟩ (by rw [this]; rfl)
    | cons c' w =>
      cases (List.cons.inj hc).1
      exact (h3 _ hs).1 ⟨w, _, _, hb⟩
  | @long_left a b w y v ha ih =>
    intro hq hf
    obtain ⟨h1, h2, h3, h4, h5⟩ := hF.long hf
    refine .longest_a (ih (hQ.longest hq).1 (hF.long_left hf)) (refused hQ (hQ.longest hq).2 h2 h4 fun c z hc hs => ?_)
    cases w with
    | nil => exact h3 ⟨_, _, ha⟩
    | cons c' w =>
      cases (List.cons.inj hc).1
      exact h5 _ ⟨w, _, _, ha⟩ hs
  | @long_right a b w y v hb ih =>
    intro hq hf
    obtain ⟨h1, h2, h3, h4, h5⟩ := hF.long hf
    refine .longest_b (refused hQ (hQ.longest hq).1 h1 h3 fun c z hc hs => ?_) (ih (hQ.longest hq).2 (hF.long_right hf))
    cases w with
    | nil => exact h4 ⟨_, _, hb⟩
    | cons c' w =>
      cases (List.cons.inj hc).1
      exact h5 _ hs ⟨w, _, _, hb⟩
  | ite _ ih =>
    intro hq hf
    refine .ite (ih ?_ ?_)
    · split
      · exact (hQ.ite hq).1
      · exact (hQ.ite hq).2
    · split
      · exact (hF.ite hf).1
      · exact (hF.ite hf).2
  | one _ ih => exact fun hq hf => .opt_some (ih (hQ.opt hq) (hF.opt hf))
  | zero =>
    intro hq hf
    obtain ⟨h1, h2, h3⟩ := hF.skipped hf
    exact .opt_none (refused_before hQ (hQ.opt hq) h1 h2 h3)
  | map _ hf' ih => exact fun hq hf => .map_ok (ih (hQ.map hq) (hF.map hf)) hf'
  | @bind a k w u y v v' _ hb ih1 ih2 =>
    intro hq hf
    rw [List.append_assoc]
    refine .bind_ok (ih1 (hQ.bind hq).1 ?_) (ih2 ((hQ.bind hq).2 _) (hF.bound hf))
    cases u with
    | nil => exact hF.bind' hf ⟨_, _, hb⟩
    | cons c u => exact hF.bind hf ⟨u, _, _, hb⟩
  | @many_stop a n T y =>
    intro hq hf
    refine Yields.many_ok (vs := []) ?_ (Nat.le_refl 0)
    by_cases hn : n = some 0
    · subst hn; exact .upto_full
    · obtain ⟨h1, h3, h4⟩ := hF.many_end hf hn
      obtain ⟨z, hz⟩ := h4 y
      have ha := refused_before hQ (hQ.many hq).1 h1 (hF.many_item hf) h3
      cases (hQ.many hq).2 _ _ ha hz
      exact .upto_stop hn ha hz
  | @many_more a m n T w u y v l hn _ hl ih1 ih2 =>
    intro hq hf
    rw [List.append_assoc]
    have h1 := ih1 (hQ.many hq).1 (by
      cases u with
      | nil => exact hF.many_last hf
      | cons c u => exact hF.many_round hf (many_begins (hF.many_item hf) hl))
    have h2 := ih2 (hQ.many' hq) (hF.many hf)
    generalize hr : some (l, y) = r at h2
    cases h2 with
    | @many_ok _ _ _ _ _ vs _ h2 hm =>
      cases hr
      exact Yields.many_ok (vs := v :: vs) (.upto_more hn h1 h2) (by simp only [List.length_cons]; omega)
    | many_no => cases hr
  | @list_stop a s keep T Ts y =>
    intro hq hf
    obtain ⟨h1, h3, h4⟩ := hF.list_end hf
    obtain ⟨z, hz⟩ := h4 y
    have ha := refused_before hQ (hQ.list hq).1 h1 (hF.list_item hf) h3
    cases (hQ.list hq).2.1 _ _ ha hz
    exact Yields.list_ok (vs := []) (.seps_stop ha hz) (Nat.le_refl 0)
  | @list_last a s keep m T Ts w y v hm _ ih =>
    intro hq hf
    obtain ⟨h1, h2, h3, h4⟩ := hF.sep_end hf
    obtain ⟨z, hz⟩ := h4 y
    have hs := fails_before h1 h2 h3
    cases (hQ.list hq).2.2 _ _ hs hz
    have hy := Yields.seps_last (keep := keep) (T := T) (ih (hQ.list hq).1 (hF.list_last hf)) hs hz
    cases keep with
    | false => exact Yields.list_ok (vs := []) hy hm
    | true => exact Yields.list_ok (vs := [v]) hy hm
  | @list_more a s keep m T Ts w u z y v l _ hs hl ih1 ih2 =>
    intro hq hf
    have hs' : Ford R s (u ++ (z ++ y)) (some (z ++ y)) := by
      refine derives_ford hP hs _ ?_
      cases z with
      | nil => exact hF.sep_last hf
      | cons c z => exact hF.sep_next hf (list_begins (hF.list_item hf) hl)
    have h1 := ih1 (hQ.list hq).1 (by
      cases u with
      | nil => exact absurd hs (hF.sep_end hf).2.1
      | cons c u => exact hF.list_sep hf ⟨u, hs⟩)
    rw [List.append_assoc] at h1
    rw [List.append_assoc, List.append_assoc]
    have h2 := ih2 (hQ.list' hq) (hF.list hf)
    generalize hr : some (l, y) = r at h2
    cases h2 with
    | @list_ok _ _ _ _ _ _ _ vs _ h2 hm =>
      cases hr
      exact Yields.list_ok (vs := v :: vs) (.seps_more h1 hs' h2) (by simp only [List.length_cons]; omega)
    | list_no => cases hr

/-! ### Tables -/

variable {N : Nat → Bool} {T : Nat → ι → Bool} {O : Nat → Option ι → Prop} {M : Nat → Prop} {S : Nat → ι → Prop}
  {U : Nat → Option ι → Prop} {rank rank' : Nat → Nat}

theorem vacant_of (h : VTables R V g N T O M S U rank rank') (hE : Vacant R V g E) : E.vacant N M := by
  obtain ⟨y, v, hE⟩ := hE
  have nn : ∀ {e : Peg ι}, Derives R e [] → e.nullable N = true := fun h' => nullable_of h.texts.nullable h'
  generalize hw : ([] : List ι) = w at hE
  induction hE with
  | text h1 h2 =>
    obtain ⟨rfl, rfl⟩ := List.append_eq_nil_iff.mp hw.symm
    exact ⟨nn h1, nn h2⟩
  | nt _ ih => exact h.vacant _ (ih hw)
  | pair _ _ ih1 ih2 =>
    obtain ⟨rfl, rfl⟩ := List.append_eq_nil_iff.mp hw.symm
    exact ⟨ih1 rfl, ih2 rfl⟩
  | after h1 _ ih =>
    obtain ⟨rfl, rfl⟩ := List.append_eq_nil_iff.mp hw.symm
    exact ⟨nn h1, ih rfl⟩
  | before _ h1 ih =>
    obtain ⟨rfl, rfl⟩ := List.append_eq_nil_iff.mp hw.symm
    exact ⟨ih rfl, nn h1⟩
  | yes _ _ _ ih _ => exact ih (List.append_eq_nil_iff.mp hw.symm).1.symm
  | no _ ih => exact ih hw
  | left _ ih | long_left _ ih => exact .inl (ih hw)
  | right _ ih | long_right _ ih => exact .inr (ih hw)
  | @ite c a b w y v _ ih =>
    have := ih hw
    split at this
    · exact .inl this
    · exact .inr this
  | one | zero => trivial
  | map _ _ ih => exact ih hw
  | bind _ _ ih1 ih2 =>
    obtain ⟨rfl, rfl⟩ := List.append_eq_nil_iff.mp hw.symm
    exact ⟨ih1 rfl, _, ih2 rfl⟩
  | many_stop | list_stop => exact .inl rfl
  | many_more _ _ _ ih _ => exact .inr (ih (List.append_eq_nil_iff.mp hw.symm).1.symm)
  | list_last _ _ ih => exact .inr (ih hw)
  | list_more _ _ _ ih _ => exact .inr (ih (List.append_eq_nil_iff.mp hw.symm).1.symm)

theorem begins_of (h : VTables R V g N T O M S U rank rank') {x : ι} (hE : Begins R V g E x) :
    E.begins N T M S x := by
  obtain ⟨w, y, v, hE⟩ := hE
  have nn : ∀ {e : Peg ι}, Derives R e [] → e.nullable N = true := fun h' => nullable_of h.texts.nullable h'
  have ff : ∀ {e : Peg ι} {x w}, Derives R e (x :: w) → e.first N T x = true :=
    fun h' => first_of h.texts.nullable h.texts.first ⟨_, h'⟩
  generalize hw : x :: w = u at hE
  induction hE generalizing w with
  | @text W e u t y h1 h2 => exact ff (w := w) (hw ▸ .seq h1 h2)
  | nt _ ih => exact h.begins _ _ (ih _ hw)
  | @pair a b w' u y v v' h1 _ ih1 ih2 =>
    cases w' with
    | nil => exact .inr ⟨vacant_of h ⟨_, _, h1⟩, ih2 _ hw⟩
    | cons c w' => cases hw; exact .inl (ih1 _ rfl)
  | @after e a u w' y v h1 _ ih =>
    cases u with
    | nil => exact .inr ⟨nn h1, ih _ hw⟩
    | cons c u => cases hw; exact .inl (ff h1)
  | @before a e w' u y v h1 h2 ih =>
    cases w' with
    | nil =>
      cases (show u = x :: w from hw.symm)
      exact .inr ⟨vacant_of h ⟨_, _, h1⟩, ff h2⟩
    | cons c w' => cases hw; exact .inl (ih _ rfl)
  | @yes a t b w' u z y v v' h1 h2 _ ih1 ih2 =>
    cases w' with
    | nil =>
      refine .inr ⟨vacant_of h ⟨_, _, h1⟩, ?_⟩
      cases u with
      | nil => exact .inr ⟨nn h2, ih2 _ hw⟩
      | cons c u => cases hw; exact .inl (ff h2)
    | cons c w' => cases hw; exact .inl (ih1 _ rfl)
  | no _ ih => exact .inl (ih _ hw)
  | left _ ih | long_left _ ih => exact .inl (ih _ hw)
  | right _ ih | long_right _ ih => exact .inr (ih _ hw)
  | @ite c a b w y v _ ih =>
    have := ih _ hw
    split at this
    · exact .inl this
    · exact .inr this
  | zero | many_stop | list_stop => cases hw
  | one _ ih | map _ _ ih => exact ih _ hw
  | @bind a k w' u y v v' h1 _ ih1 ih2 =>
    cases w' with
    | nil => exact .inr ⟨vacant_of h ⟨_, _, h1⟩, _, ih2 _ hw⟩
    | cons c w' => cases hw; exact .inl (ih1 _ rfl)
  | @many_more a m n T' w' u y v l _ _ _ ih1 ih2 =>
    cases w' with
    | nil => exact ih2 _ hw
    | cons c w' => cases hw; exact ih1 _ rfl
  | list_last _ _ ih => exact .inl (ih _ hw)
  | @list_more a s keep m T' Ts w' u z y v l h1 h2 _ ih1 ih2 =>
    cases w' with
    | nil =>
      cases u with
      | nil => exact ih2 _ hw
      | cons c u => cases hw; exact .inr ⟨vacant_of h ⟨_, _, h1⟩, ff h2⟩
    | cons c w' => cases hw; exact .inl (ih1 _ rfl)

theorem steady_of (h : VTables R V g N T O M S U rank rank') : Steady R V g (·.tidy R V g N M) where
  nt _ := h.tidy _
  pair h := h
  after h := h.2
  before h := h.1
  cond h := ⟨h.1, h.2.2⟩
  alt h := h
  longest h := h
  ite h := h
  opt h := h
  map h := h
  bind h := h
  many h := ⟨h.1, h.2.2.1⟩
  many' h := h
  list h := ⟨h.1, h.2.2.1.1, h.2.2.2.2.1⟩
  list' h := h
  upto h := h
  seps h := h

theorem leftIn_all (E : VPeg ι β) : E.leftIn N M fun _ => True := by
  induction E with
  | text | fail | nt => trivial
  | pair a b iha ihb => exact ⟨iha, fun _ => ihb⟩
  | after e a ih => exact fun _ => ih
  | before a e ih => exact ih
  | cond a t b iha ihb => exact ⟨iha, fun _ _ => ihb⟩
  | alt a b iha ihb | longest a b iha ihb | ite c a b iha ihb => exact ⟨iha, ihb⟩
  | opt a ih | map f a ih | upto a n T ih | many a m n T ih | seps a s keep T Ts ih | list a s keep m T Ts ih => exact ih
  | bind a k iha ihk => exact ⟨iha, fun _ v => ihk v⟩

theorem upto_answers {a : VPeg ι β} {T' : Peg ι} {L : Nat} (ha : ∀ x, x.length ≤ L → ∃ r, Yields R V g a x r)
    (hm : ∀ x v y, Yields R V g a x (some (v, y)) → y.length < x.length) (hT : ∀ x, ∃ z, Ford R T' x (some z)) :
    ∀ k n (x : List ι), x.length ≤ k → k ≤ L → ∃ vs y, Yields R V g (.upto a n T') x (some (Val.list vs, y)) := by
  intro k
  induction k with
  | zero =>
    intro n x hx hk
    by_cases hn : n = some 0
    · subst hn; exact ⟨[], x, .upto_full⟩
    · obtain ⟨r, hr⟩ := ha x (by omega)
      rcases r with _ | ⟨v, y⟩
      · obtain ⟨z, hz⟩ := hT x
        exact ⟨[], z, .upto_stop hn hr hz⟩
      · have := hm _ _ _ hr; omega
  | succ k ih =>
    intro n x hx hk
    by_cases hn : n = some 0
    · subst hn; exact ⟨[], x, .upto_full⟩
    · obtain ⟨r, hr⟩ := ha x (by omega)
      rcases r with _ | ⟨v, y⟩
      · obtain ⟨z, hz⟩ := hT x
        exact ⟨[], z, .upto_stop hn hr hz⟩
      · have := hm _ _ _ hr
        obtain ⟨vs, z, hz⟩ := ih (n.map (· - 1)) y (by omega) (by omega)
        exact ⟨v :: vs, z, .upto_more hn hr hz⟩

theorem seps_answers {a : VPeg ι β} {s T' Ts : Peg ι} {keep : Bool} {L : Nat}
    (ha : ∀ x, x.length ≤ L → ∃ r, Yields R V g a x r)
    (hm : ∀ x v y, Yields R V g a x (some (v, y)) → y.length < x.length) (hT : ∀ x, ∃ z, Ford R T' x (some z))
    (hs : Halts R s) (hTs : ∀ x, ∃ z, Ford R Ts x (some z)) :
    ∀ k (x : List ι), x.length ≤ k → k ≤ L → ∃ vs y, Yields R V g (.seps a s keep T' Ts) x (some (Val.list vs, y)) := by
  have last : ∀ x v y, Yields R V g a x (some (v, y)) → Ford R s y none →
      ∃ vs y, Yields R V g (.seps a s keep T' Ts) x (some (Val.list vs, y)) := by
    intro x v y hy hn
    obtain ⟨z, hz⟩ := hTs y
    have := Yields.seps_last (keep := keep) (T := T') hy hn hz
    cases keep with
    | true => exact ⟨[v], z, this⟩
    | false => exact ⟨[], z, this⟩
  intro k
  induction k with
  | zero =>
    intro x hx hk
    obtain ⟨r, hr⟩ := ha x (by omega)
    rcases r with _ | ⟨v, y⟩
    · obtain ⟨z, hz⟩ := hT x
      exact ⟨[], z, .seps_stop hr hz⟩
    · have := hm _ _ _ hr; omega
  | succ k ih =>
    intro x hx hk
    obtain ⟨r, hr⟩ := ha x (by omega)
    rcases r with _ | ⟨v, y⟩
    · obtain ⟨z, hz⟩ := hT x
      exact ⟨[], z, .seps_stop hr hz⟩
    · have := hm _ _ _ hr
      obtain ⟨r, hs'⟩ := hs y
      rcases r with _ | z
      · exact last _ _ _ hr hs'
      · obtain ⟨w, rfl, _⟩ := ford_derives hs'
        simp only [List.length_append] at this
        obtain ⟨vs, z', hz⟩ := ih z (by omega) (by omega)
        exact ⟨v :: vs, z', .seps_more hr hs' hz⟩

/-- `E` answers every text of length `n`. -/
def At (R : Nat → Peg ι) (V : Nat → VPeg ι β) (g : List ι → List ι → β) (n : Nat) (E : VPeg ι β) : Prop :=
  ∀ x : List ι, x.length = n → ∃ r, Yields R V g E x r

/-- Without left recursion every expression has a result. -/
theorem answers_of (h : VTables R V g N T O M S U rank rank') (hE : E.tidy R V g N M) : Answers R V g E := by
  have hQ := steady_of h
  have hh : ∀ {e : Peg ι}, e.loopsMove N → Halts R e :=
    fun he => halts_of h.texts.nullable h.texts.loops h.texts.ranked he
  have moves : ∀ {a : VPeg ι β}, a.tidy R V g N M → ¬ a.vacant N M → ∀ x v y, Yields R V g a x (some (v, y)) →
      y.length < x.length := by
    intro a ha hn x v y hy
    obtain ⟨w, rfl, hw⟩ := sound hQ ha hy
    cases w with
    | nil => exact absurd (vacant_of h ⟨_, _, hw⟩) hn
    | cons c w => simp only [List.cons_append, List.length_cons, List.length_append]; omega
  have struct : ∀ (n : Nat) (K : Nat → Prop), (∀ m, m < n → ∀ E : VPeg ι β, E.tidy R V g N M → At R V g m E) →
      (∀ i, K i → At R V g n (V i)) → ∀ E : VPeg ι β, E.tidy R V g N M → E.leftIn N M K → At R V g n E := by
    intro n K short hK E
    -- what comes after `a`, at the same place or further on
    have then_ : ∀ {a b : VPeg ι β} {x v y}, a.tidy R V g N M → x.length = n → Yields R V g a x (some (v, y)) →
        b.tidy R V g N M → (a.vacant N M → At R V g n b) → ∃ r, Yields R V g b y r := by
      intro a b x v y ha hx hy hb hn
      obtain ⟨w, rfl, hw⟩ := sound hQ ha hy
      cases w with
      | nil => exact hn (vacant_of h ⟨_, _, hw⟩) y hx
      | cons c w => exact short _ (by simp only [List.cons_append, List.length_cons, List.length_append] at hx; omega) b hb y rfl
    have le : ∀ {a : VPeg ι β}, a.tidy R V g N M → At R V g n a → ∀ x : List ι, x.length ≤ n → ∃ r, Yields R V g a x r := by
      intro a ha hn x hx
      by_cases hx' : x.length = n
      · exact hn x hx'
      · exact short _ (by omega) a ha x rfl
    induction E with
    | text W e =>
      intro ht _ x _
      obtain ⟨r, hr⟩ := hh ht.1 x
      rcases r with _ | y
      · exact ⟨_, .text_no (.seq_fail hr)⟩
      · obtain ⟨r, he⟩ := hh ht.2 y
        rcases r with _ | z
        · exact ⟨_, .text_no (.seq_ok hr he)⟩
        · obtain ⟨t, rfl, _⟩ := ford_derives he
          exact ⟨_, .text_ok hr he⟩
    | fail => exact fun _ _ x _ => ⟨_, .fail⟩
    | nt i =>
      intro _ hk x hx
      obtain ⟨r, hr⟩ := hK i hk x hx
      exact ⟨r, .nt hr⟩
    | pair a b iha ihb =>
      intro ht hk x hx
      obtain ⟨r, hr⟩ := iha ht.1 hk.1 x hx
      rcases r with _ | ⟨v, y⟩
      · exact ⟨_, .pair_no1 hr⟩
      · obtain ⟨r, hb⟩ := then_ ht.1 hx hr ht.2 fun hn => ihb ht.2 (hk.2 hn)
        rcases r with _ | ⟨v', z⟩
        · exact ⟨_, .pair_no2 hr hb⟩
        · exact ⟨_, .pair_ok hr hb⟩
    | after e a ih =>
      intro ht hk x hx
      obtain ⟨r, hr⟩ := hh ht.1 x
      rcases r with _ | y
      · exact ⟨_, .after_no hr⟩
      · obtain ⟨w, rfl, hw⟩ := ford_derives hr
        cases w with
        | nil =>
          obtain ⟨r, ha⟩ := ih ht.2 (hk (nullable_of h.texts.nullable hw)) y hx
          exact ⟨_, .after_ok hr ha⟩
        | cons c w =>
          obtain ⟨r, ha⟩ := short y.length
            (by simp only [List.cons_append, List.length_cons, List.length_append] at hx; omega) a ht.2 y rfl
          exact ⟨_, .after_ok hr ha⟩
    | before a e ih =>
      intro ht hk x hx
      obtain ⟨r, hr⟩ := ih ht.1 hk x hx
      rcases r with _ | ⟨v, y⟩
      · exact ⟨_, .before_no1 hr⟩
      · obtain ⟨r, he⟩ := hh ht.2 y
        rcases r with _ | z
        · exact ⟨_, .before_no2 hr he⟩
        · exact ⟨_, .before_ok hr he⟩
    | cond a t b iha ihb =>
      intro ht hk x hx
      obtain ⟨r, hr⟩ := iha ht.1 hk.1 x hx
      rcases r with _ | ⟨v, y⟩
      · exact ⟨_, .cond_fail1 hr⟩
      · obtain ⟨r, he⟩ := hh ht.2.1 y
        rcases r with _ | z
        · exact ⟨_, .cond_no hr he⟩
        · have hb : ∃ r, Yields R V g b z r := by
            obtain ⟨w, rfl, hw⟩ := sound hQ ht.1 hr
            obtain ⟨u, rfl, hu⟩ := ford_derives he
            simp only [List.length_append] at hx
            by_cases hz : z.length = n
            · refine ihb ht.2.2 (hk.2 ?_ ?_) z hz
              · have : w = [] := List.eq_nil_of_length_eq_zero (by omega)
                subst this
                exact vacant_of h ⟨_, _, hw⟩
              · have : u = [] := List.eq_nil_of_length_eq_zero (by omega)
                subst this
                exact nullable_of h.texts.nullable hu
            · exact short _ (by omega) b ht.2.2 z rfl
          obtain ⟨r, hb⟩ := hb
          rcases r with _ | ⟨v', z'⟩
          · exact ⟨_, .cond_fail2 hr he hb⟩
          · exact ⟨_, .cond_yes hr he hb⟩
    | alt a b iha ihb =>
      intro ht hk x hx
      obtain ⟨r, hr⟩ := iha ht.1 hk.1 x hx
      rcases r with _ | ⟨v, y⟩
      · obtain ⟨r, hb⟩ := ihb ht.2 hk.2 x hx
        exact ⟨_, .alt_2 hr hb⟩
      · exact ⟨_, .alt_1 hr⟩
    | longest a b iha ihb =>
      intro ht hk x hx
      obtain ⟨r, hr⟩ := iha ht.1 hk.1 x hx
      obtain ⟨r', hb⟩ := ihb ht.2 hk.2 x hx
      rcases r with _ | ⟨v, y⟩
      · exact ⟨_, .longest_b hr hb⟩
      · rcases r' with _ | ⟨w, z⟩
        · exact ⟨_, .longest_a hr hb⟩
        · by_cases hl : y.length ≤ z.length
          · exact ⟨_, .longest_l hr hb hl⟩
          · exact ⟨_, .longest_r hr hb (by omega)⟩
    | ite c a b iha ihb =>
      intro ht hk x hx
      by_cases hc : c x = true
      · obtain ⟨r, hr⟩ := iha ht.1 hk.1 x hx
        exact ⟨r, .ite (by rwa [if_pos hc])⟩
      · obtain ⟨r, hr⟩ := ihb ht.2 hk.2 x hx
        exact ⟨r, .ite (by rwa [if_neg hc])⟩
    | opt a ih =>
      intro ht hk x hx
      obtain ⟨r, hr⟩ := ih ht hk x hx
      rcases r with _ | ⟨v, y⟩
      · exact ⟨_, .opt_none hr⟩
      · exact ⟨_, .opt_some hr⟩
    | map f a ih =>
      intro ht hk x hx
      obtain ⟨r, hr⟩ := ih ht hk x hx
      rcases r with _ | ⟨v, y⟩
      · exact ⟨_, .map_fail hr⟩
      · cases hf : f v with
        | none => exact ⟨_, .map_no hr hf⟩
        | some v' => exact ⟨_, .map_ok hr hf⟩
    | bind a k iha ihk =>
      intro ht hk x hx
      obtain ⟨r, hr⟩ := iha ht.1 hk.1 x hx
      rcases r with _ | ⟨v, y⟩
      · exact ⟨_, .bind_no1 hr⟩
      · obtain ⟨r, hb⟩ := then_ ht.1 hx hr (ht.2 v) fun hn => ihk v (ht.2 v) (hk.2 hn v)
        rcases r with _ | ⟨v', z⟩
        · exact ⟨_, .bind_no2 hr hb⟩
        · exact ⟨_, .bind_ok hr hb⟩
    | upto | seps => exact fun ht => ht.elim
    | many a m j T' ih =>
      intro ht hk x hx
      obtain ⟨vs, y, hy⟩ := upto_answers (le ht.1 (ih ht.1 hk)) (moves ht.1 ht.2.1) ht.2.2.2 n j x (by omega) (Nat.le_refl n)
      by_cases hm : m ≤ vs.length
      · exact ⟨_, .many_ok hy hm⟩
      · exact ⟨_, .many_no hy (by omega)⟩
    | list a s keep m T' Ts ih =>
      intro ht hk x hx
      obtain ⟨vs, y, hy⟩ := seps_answers (keep := keep) (le ht.1 (ih ht.1 hk)) (moves ht.1 ht.2.1) ht.2.2.1.2
        (hh ht.2.2.2.1) ht.2.2.2.2.2 n x (by omega) (Nat.le_refl n)
      by_cases hm : m ≤ vs.length
      · exact ⟨_, .list_ok hy hm⟩
      · exact ⟨_, .list_no hy (by omega)⟩
  have key : ∀ n (E : VPeg ι β), E.tidy R V g N M → At R V g n E := by
    intro n
    induction n using Nat.strongRecOn with
    | ind n ihn =>
      have rules : ∀ k i, rank' i < k → At R V g n (V i) := by
        intro k
        induction k with
        | zero => exact fun i hi => absurd hi (Nat.not_lt_zero _)
        | succ k ihk =>
          intro i hi
          exact struct n _ ihn (fun j hj => ihk j (Nat.lt_of_lt_of_le hj (Nat.le_of_lt_succ hi))) (V i) (h.tidy i) (h.ranked i)
      exact fun E hE => struct n (fun _ => True) ihn (fun i _ => rules _ i (Nat.lt_succ_self _)) E hE (leftIn_all E)
  exact fun x => key x.length E hE x rfl

/-- Tables without conflict: one item of lookahead decides. -/
theorem foreseen_of (h : VTables R V g N T O M S U rank rank') :
    Foreseen R V g (fun e x => ∃ H, e.noConflict R N T O H ∧ e.loopsMove N ∧ H x)
      (fun E x => ∃ H, E.clear R N T O M S U H ∧ E.tidy R V g N M ∧ H x) where
  text := by rintro W e x ⟨H, h1, h2, h3⟩; exact ⟨H, h1, h2, h3⟩
  nt := by rintro i x ⟨H, h1, h2, h3⟩; exact ⟨U i, h.follow i, h.tidy i, h1 _ h3⟩
  first := by rintro a b x c ⟨H, h1, h2, h3⟩ hb; exact ⟨_, h1.2, h2.1, .inl ⟨c, rfl, begins_of h hb⟩⟩
  first' := by rintro a b x ⟨H, h1, h2, h3⟩ hb; exact ⟨_, h1.2, h2.1, .inr ⟨vacant_of h hb, h3⟩⟩
  second := by rintro a b x ⟨H, h1, h2, h3⟩; exact ⟨H, h1.1, h2.2, h3⟩
  after := by rintro e a x c ⟨H, h1, h2, h3⟩ hb; exact ⟨_, h1.2, h2.1, .inl ⟨c, rfl, begins_of h hb⟩⟩
  after' := by rintro e a x ⟨H, h1, h2, h3⟩ hb; exact ⟨_, h1.2, h2.1, .inr ⟨vacant_of h hb, h3⟩⟩
  inner := by rintro e a x ⟨H, h1, h2, h3⟩; exact ⟨H, h1.1, h2.2, h3⟩
  before := by
    rintro a e x c ⟨H, h1, h2, h3⟩ hs
    exact ⟨_, h1.2, h2.1, .inl ⟨c, rfl, first_of h.texts.nullable h.texts.first hs⟩⟩
  before' := by
    rintro a e x ⟨H, h1, h2, h3⟩ hs
    exact ⟨_, h1.2, h2.1, .inr ⟨nullable_of h.texts.nullable hs, h3⟩⟩
  delim := by rintro a e x ⟨H, h1, h2, h3⟩; exact ⟨H, h1.1, h2.2, h3⟩
  test := by
    rintro a t b x ⟨H, ⟨_, _, h1, h4, _⟩, h2, h3⟩
    refine ⟨halts_of h.texts.nullable h.texts.loops h.texts.ranked h2.2.1, fun hn => ?_, fun c hc he => ?_⟩
    · have := nullable_of h.texts.nullable hn; rw [h1] at this; cases this
    · exact h4 c (first_of h.texts.nullable h.texts.first hc) (he ▸ h3)
  cond_test := by
    rintro a t b x c ⟨H, ⟨_, _, _, _, h1⟩, h2, h3⟩ hs
    exact ⟨_, h1, h2.1, .inl ⟨c, rfl, first_of h.texts.nullable h.texts.first hs⟩⟩
  cond_none := by rintro a t b x ⟨H, ⟨_, _, _, _, h1⟩, h2, h3⟩; exact ⟨_, h1, h2.1, .inr h3⟩
  cond_then := by rintro a t b x ⟨H, h1, h2, h3⟩; exact ⟨H, h1.1, h2.2.2, h3⟩
  test_then := by rintro a t b x c ⟨H, h1, h2, h3⟩ hb; exact ⟨_, h1.2.1, h2.2.1, .inl ⟨c, rfl, begins_of h hb⟩⟩
  test_then' := by rintro a t b x ⟨H, h1, h2, h3⟩ hb; exact ⟨_, h1.2.1, h2.2.1, .inr ⟨vacant_of h hb, h3⟩⟩
  left := by rintro a b x ⟨H, h1, h2, h3⟩; exact ⟨H, h1.1, h2.1, h3⟩
  right := by rintro a b x ⟨H, h1, h2, h3⟩; exact ⟨H, h1.2.1, h2.2, h3⟩
  choice := by
    rintro a b x ⟨H, ⟨_, _, h1, h4⟩, h2, h3⟩
    refine ⟨answers_of h h2.1, fun hn => h1 (vacant_of h hn), fun c hc => ?_⟩
    obtain ⟨h5, h6⟩ := h4 c (begins_of h hc)
    exact ⟨fun hb => h5 (begins_of h hb), fun hb he => h6 (vacant_of h hb) (he ▸ h3)⟩
  long_left := by rintro a b x ⟨H, h1, h2, h3⟩; exact ⟨H, h1.1, h2.1, h3⟩
  long_right := by rintro a b x ⟨H, h1, h2, h3⟩; exact ⟨H, h1.2.1, h2.2, h3⟩
  long := by
    rintro a b x ⟨H, ⟨_, _, h1, h4, h5⟩, h2, h3⟩
    exact ⟨answers_of h h2.1, answers_of h h2.2, fun hn => h1 (vacant_of h hn), fun hn => h4 (vacant_of h hn),
      fun c hc hb => h5 c (begins_of h hc) (begins_of h hb)⟩
  ite := by rintro c a b x ⟨H, h1, h2, h3⟩; exact ⟨⟨H, h1.1, h2.1, h3⟩, H, h1.2, h2.2, h3⟩
  opt := by rintro a x ⟨H, h1, h2, h3⟩; exact ⟨H, h1.1, h2, h3⟩
  skipped := by
    rintro a x ⟨H, ⟨_, h1, h4⟩, h2, h3⟩
    exact ⟨answers_of h h2, fun hn => h1 (vacant_of h hn), fun c hc he => h4 c (begins_of h hc) (he ▸ h3)⟩
  map := by rintro f a x ⟨H, h1, h2, h3⟩; exact ⟨H, h1, h2, h3⟩
  bind := by rintro a k x c v ⟨H, h1, h2, h3⟩ hb; exact ⟨_, h1.2, h2.1, v, .inl ⟨c, rfl, begins_of h hb⟩⟩
  bind' := by rintro a k x v ⟨H, h1, h2, h3⟩ hb; exact ⟨_, h1.2, h2.1, v, .inr ⟨vacant_of h hb, h3⟩⟩
  bound := by rintro a k x v ⟨H, h1, h2, h3⟩; exact ⟨H, h1.1 v, h2.2 v, h3⟩
  many := by
    rintro a m n T' x ⟨H, ⟨h1, h4⟩, h2, h3⟩
    refine ⟨H, ⟨h1.imp_left ?_, h4⟩, h2, h3⟩
    rintro ⟨j, rfl, hj⟩
    exact ⟨j - 1, rfl, by omega⟩
  many_round := by rintro a m n T' x c ⟨H, h1, h2, h3⟩ hb; exact ⟨_, h1.2, h2.1, .inl ⟨c, rfl, begins_of h hb⟩⟩
  many_last := by rintro a m n T' x ⟨H, h1, h2, h3⟩; exact ⟨_, h1.2, h2.1, .inr h3⟩
  many_item := by rintro a m n T' x ⟨H, h1, h2, h3⟩ hn; exact h2.2.1 (vacant_of h hn)
  many_end := by
    rintro a n T' x ⟨H, ⟨h1, _⟩, h2, h3⟩ hn
    refine ⟨answers_of h h2.1, fun c hc he => ?_, h2.2.2.2⟩
    rcases h1 with ⟨j, rfl, hj⟩ | h1
    · exact hn (by rw [Nat.le_zero.mp hj])
    · exact h1 c (begins_of h hc) (he ▸ h3)
  list := by rintro a s keep m T' Ts x ⟨H, h1, h2, h3⟩; exact ⟨H, h1, h2, h3⟩
  list_item := by rintro a s keep m T' Ts x ⟨H, h1, h2, h3⟩ hn; exact h2.2.1 (vacant_of h hn)
  list_sep := by
    rintro a s keep m T' Ts x c ⟨H, ⟨_, _, _, _, h1⟩, h2, h3⟩ hs
    exact ⟨_, h1, h2.1, .inl ⟨c, rfl, first_of h.texts.nullable h.texts.first hs⟩⟩
  list_last := by rintro a s keep m T' Ts x ⟨H, ⟨_, _, _, _, h1⟩, h2, h3⟩; exact ⟨_, h1, h2.1, .inr h3⟩
  sep_next := by
    rintro a s keep m T' Ts x c ⟨H, ⟨_, _, _, h1, _⟩, h2, h3⟩ hb
    exact ⟨_, h1, h2.2.2.2.1, .inl ⟨c, rfl, begins_of h hb⟩⟩
  sep_last := by rintro a s keep m T' Ts x ⟨H, ⟨_, _, _, h1, _⟩, h2, h3⟩; exact ⟨_, h1, h2.2.2.2.1, .inr h3⟩
  sep_end := by
    rintro a s keep m T' Ts x ⟨H, ⟨h1, _, h4, _, _⟩, h2, h3⟩
    refine ⟨halts_of h.texts.nullable h.texts.loops h.texts.ranked h2.2.2.2.1, fun hn => ?_, fun c hc he => ?_, h2.2.2.2.2.2⟩
    · have := nullable_of h.texts.nullable hn; rw [h1] at this; cases this
    · exact h4 c (first_of h.texts.nullable h.texts.first hc) (he ▸ h3)
  list_end := by
    rintro a s keep T' Ts x ⟨H, ⟨_, h1, _, _, _⟩, h2, h3⟩
    exact ⟨answers_of h h2.1, fun c hc he => h1 c (begins_of h hc) (he ▸ h3), h2.2.2.1.2⟩

/-! ### Texts and delimiters without nonterminals -/

theorem yields_flat [Item ι] {R' : Nat → Peg ι} (hV : ∀ i, (V i).flat) {x r} (h : Yields R V g E x r) :
    E.flat → Yields R' V g E x r := by
  have ff : ∀ {e : Peg ι} {x r}, Ford R e x r → e.NoNt → Ford R' e x r := fun h hn => Skip.ford_noNt h hn
  induction h with
  | text_ok h1 h2 => exact fun hf => .text_ok (ff h1 hf.1) (ff h2 hf.2)
  | text_no h => exact fun hf => .text_no (ff h hf)
  | fail => exact fun _ => .fail
  | nt _ ih => exact fun _ => .nt (ih (hV _))
  | pair_ok _ _ i1 i2 => exact fun hf => .pair_ok (i1 hf.1) (i2 hf.2)
  | pair_no1 _ i1 => exact fun hf => .pair_no1 (i1 hf.1)
  | pair_no2 _ _ i1 i2 => exact fun hf => .pair_no2 (i1 hf.1) (i2 hf.2)
  | after_ok h _ i => exact fun hf => .after_ok (ff h hf.1) (i hf.2)
  | after_no h => exact fun hf => .after_no (ff h hf.1)
  | before_ok _ h i => exact fun hf => .before_ok (i hf.1) (ff h hf.2)
  | before_no1 _ i => exact fun hf => .before_no1 (i hf.1)
  | before_no2 _ h i => exact fun hf => .before_no2 (i hf.1) (ff h hf.2)
  | cond_yes _ h _ i1 i2 => exact fun hf => .cond_yes (i1 hf.1) (ff h hf.2.1) (i2 hf.2.2)
  | cond_no _ h i => exact fun hf => .cond_no (i hf.1) (ff h hf.2.1)
  | cond_fail1 _ i => exact fun hf => .cond_fail1 (i hf.1)
  | cond_fail2 _ h _ i1 i2 => exact fun hf => .cond_fail2 (i1 hf.1) (ff h hf.2.1) (i2 hf.2.2)
  | alt_1 _ i => exact fun hf => .alt_1 (i hf.1)
  | alt_2 _ _ i1 i2 => exact fun hf => .alt_2 (i1 hf.1) (i2 hf.2)
  | longest_l _ _ h i1 i2 => exact fun hf => .longest_l (i1 hf.1) (i2 hf.2) h
  | longest_r _ _ h i1 i2 => exact fun hf => .longest_r (i1 hf.1) (i2 hf.2) h
  | longest_a _ _ i1 i2 => exact fun hf => .longest_a (i1 hf.1) (i2 hf.2)
  | longest_b _ _ i1 i2 => exact fun hf => .longest_b (i1 hf.1) (i2 hf.2)
  | ite _ i =>
    refine fun hf => .ite (i ?_)
    split
    · exact hf.1
    · exact hf.2
  | opt_some _ i => exact fun hf => .opt_some (i hf)
  | opt_none _ i => exact fun hf => .opt_none (i hf)
  | map_ok _ h i => exact fun hf => .map_ok (i hf) h
  | map_no _ h i => exact fun hf => .map_no (i hf) h
  | map_fail _ i => exact fun hf => .map_fail (i hf)
  | bind_ok _ _ i1 i2 => exact fun hf => .bind_ok (i1 hf.1) (i2 (hf.2 _))
  | bind_no1 _ i1 => exact fun hf => .bind_no1 (i1 hf.1)
  | bind_no2 _ _ i1 i2 => exact fun hf => .bind_no2 (i1 hf.1) (i2 (hf.2 _))
  | upto_full => exact fun _ => .upto_full
  | upto_stop hn _ h i => exact fun hf => .upto_stop hn (i hf.1) (ff h hf.2)
  | upto_more hn _ _ i1 i2 => exact fun hf => .upto_more hn (i1 hf.1) (i2 hf)
  | many_ok _ h i => exact fun hf => .many_ok (i hf) h
  | many_no _ h i => exact fun hf => .many_no (i hf) h
  | seps_stop _ h i => exact fun hf => .seps_stop (i hf.1) (ff h hf.2.2.1)
  | seps_last _ h h' i => exact fun hf => .seps_last (i hf.1) (ff h hf.2.1) (ff h' hf.2.2.2)
  | seps_more _ h _ i1 i2 => exact fun hf => .seps_more (i1 hf.1) (ff h hf.2.1) (i2 hf)
  | list_ok _ h i => exact fun hf => .list_ok (i hf) h
  | list_no _ h i => exact fun hf => .list_no (i hf) h

end Means
end Neure
