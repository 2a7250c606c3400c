import Verif.CfgSpec
import Verif.PropsPeg
import Verif.PropsSkip
import Verif.PropsTerm
/-!
# C79: when the context-free reading is right

Everything that is matched is a text of the context-free grammar.  The converse fails in
general (an earlier alternative hides a later one, a loop takes what its successor needs);
it holds when one item of lookahead decides.
-/

namespace Neure

set_option linter.unusedSectionVars false
set_option linter.unusedSimpArgs false

open Demo

section Peg
variable {ι : Type} {R : Nat → Peg ι} {F : Peg ι → Option ι → Prop} {e a b : Peg ι}

/-- What a parsing expression consumes is derived by the context-free grammar. -/
theorem ford_derives {x y : List ι} (h : Ford R e x (some y)) : ∃ w, x = w ++ y ∧ Derives R e w := by
  generalize hr : some y = r at h
  induction h generalizing y with
  | eps => cases hr; exact ⟨[], rfl, .eps⟩
  | cls_ok h => cases hr; exact ⟨[_], rfl, .cls h⟩
  | cls_no | cls_end | seq_fail | not_fail => cases hr
  | nt _ ih => obtain ⟨w, h1, h2⟩ := ih hr; exact ⟨w, h1, .nt h2⟩
  | seq_ok _ _ ih1 ih2 =>
    obtain ⟨w, h1, h2⟩ := ih1 rfl
    obtain ⟨v, h3, h4⟩ := ih2 hr
    exact ⟨w ++ v, by rw [h1, h3, List.append_assoc], .seq h2 h4⟩
  | alt_1 _ ih => obtain ⟨w, h1, h2⟩ := ih hr; exact ⟨w, h1, .left h2⟩
  | alt_2 _ _ _ ih => obtain ⟨w, h1, h2⟩ := ih hr; exact ⟨w, h1, .right h2⟩
  | star_end => cases hr; exact ⟨[], rfl, .stop⟩
  | star_more _ _ ih1 ih2 =>
    obtain ⟨w, h1, h2⟩ := ih1 rfl
    obtain ⟨v, h3, h4⟩ := ih2 hr
    exact ⟨w ++ v, by rw [h1, h3, List.append_assoc], .more h2 h4⟩
  | @not_ok a x h _ =>
    cases hr
    refine ⟨[], rfl, .ahead ?_⟩
    rintro rfl
    cases h

/-- What can begin neither with the next item nor be empty fails. -/
theorem fails_of (hh : Halts R a) (hn : ¬ Nullable R a) {x : List ι} (h : ∀ c z, x = c :: z → ¬ Starts R a c) :
    Ford R a x none := by
  obtain ⟨r, hr⟩ := hh x
  cases r with
  | none => exact hr
  | some y =>
    obtain ⟨w, rfl, hw⟩ := ford_derives hr
    cases w with
    | nil => exact absurd hw hn
    | cons c w => exact absurd ⟨w, hw⟩ (h c (w ++ y) rfl)

/-- Where one item of lookahead decides, everything derived is consumed. -/
theorem derives_ford (hF : Predictive R F) {w : List ι} (h : Derives R e w) :
    ∀ y, F e y.head? → Ford R e (w ++ y) (some y) := by
  induction h with
  | eps => exact fun y _ => .eps
  | cls h => exact fun y _ => .cls_ok h
  | nt _ ih => exact fun y hy => .nt (ih y (hF.nt hy))
  | @seq a b w v _ hb ih1 ih2 =>
    intro y hy
    rw [List.append_assoc]
    refine .seq_ok (ih1 (v ++ y) ?_) (ih2 y (hF.second hy))
    cases v with
    | nil => exact hF.first' hy hb
    | cons c v => exact hF.first hy ⟨v, hb⟩
  | left _ ih => exact fun y hy => .alt_1 (ih y (hF.left hy))
  | @right a b w hb ih =>
    intro y hy
    obtain ⟨h1, h2, h3⟩ := hF.decided hy
    refine .alt_2 (fails_of h1 h2 fun c z hc hs => ?_) (ih y (hF.right hy))
    cases w with
    | nil =>
      have : y = c :: z := hc
      exact (h3 c hs).2 hb (by rw [this]; rfl)
    | cons c' w =>
      have : c' = c := (List.cons.inj hc).1
      subst this
      exact (h3 c' hs).1 ⟨w, hb⟩
  | stop =>
    intro y hy
    obtain ⟨h1, h2, h3⟩ := hF.ends hy
    exact .star_end (fails_of h1 h2 fun c z hc hs => h3 c hs (by rw [show y = c :: z from hc]; rfl))
  | @more a w v _ hv ih1 ih2 =>
    intro y hy
    rw [List.append_assoc]
    refine .star_more (ih1 (v ++ y) ?_) (ih2 y hy)
    have first : ∀ {u}, Derives R (.star a) u → ∀ c u', u = c :: u' → Starts R a c := by
      intro u hu
      generalize he : Peg.star a = e at hu
      induction hu with
      | stop => intro c u' h; cases h
      | @more a' w v h1 _ _ _ =>
        cases he
        intro c u' h
        cases w with
        | nil => exact absurd h1 (hF.ends hy).2.1
        | cons c' w => cases h; exact ⟨w, h1⟩
      | _ => cases he
    cases v with
    | nil => exact hF.last hy
    | cons c v => exact hF.round hy (first hv c v rfl)
  | ahead ha => exact fun y hy => .not_ok (hF.ahead hy ha y rfl)

/-! ### Tables -/

variable {N : Nat → Bool} {T : Nat → ι → Bool} {O : Nat → Option ι → Prop} {rank : Nat → Nat}

theorem nullable_of (hN : ∀ i, (R i).nullable N = true → N i = true) (h : Nullable R e) : e.nullable N = true := by
  unfold Nullable at h
  generalize hw : ([] : List ι) = w at h
  induction h with
  | eps | stop | ahead | more => rfl
  | cls => cases hw
  | nt _ ih => exact hN _ (ih hw)
  | seq _ _ ih1 ih2 =>
    obtain ⟨h1, h2⟩ := List.append_eq_nil_iff.mp hw.symm
    simp [Peg.nullable, ih1 h1.symm, ih2 h2.symm]
  | left _ ih => simp [Peg.nullable, ih hw]
  | right _ ih => simp [Peg.nullable, ih hw]

theorem first_of (hN : ∀ i, (R i).nullable N = true → N i = true) (hT : ∀ i x, (R i).first N T x = true → T i x = true)
    {x : ι} (h : Starts R e x) : e.first N T x = true := by
  obtain ⟨w, h⟩ := h
  generalize hw : x :: w = u at h
  induction h generalizing w with
  | eps | stop | ahead => cases hw
  | cls h => cases hw; exact h
  | nt _ ih => exact hT _ _ (ih w hw)
  | @seq a b w1 w2 h1 _ ih1 ih2 =>
    cases w1 with
    | nil => simp [Peg.first, nullable_of hN h1, ih2 w hw]
    | cons c w1 => cases hw; simp [Peg.first, ih1 w1 rfl]
  | left _ ih => simp [Peg.first, ih w hw]
  | right _ ih => simp [Peg.first, ih w hw]
  | @more a w1 w2 h1 _ ih1 ih2 =>
    cases w1 with
    | nil => exact ih2 w hw
    | cons c w1 => cases hw; exact ih1 w1 rfl

theorem leftBelow_mono {k k' : Nat} (hk : k ≤ k') (h : e.leftBelow N rank k) : e.leftBelow N rank k' := by
  induction e with
  | eps | cls => trivial
  | nt i => exact Nat.lt_of_lt_of_le h hk
  | seq a b iha ihb => exact ⟨iha h.1, fun hn => ihb (h.2 hn)⟩
  | alt a b iha ihb => exact ⟨iha h.1, ihb h.2⟩
  | star a ih => exact ih h
  | not a ih => exact ih h

theorem leftBelow_some (N : Nat → Bool) (rank : Nat → Nat) (e : Peg ι) : ∃ k, e.leftBelow N rank k := by
  induction e with
  | eps | cls => exact ⟨0, trivial⟩
  | nt i => exact ⟨rank i + 1, Nat.lt_succ_self _⟩
  | seq a b iha ihb =>
    obtain ⟨k, hk⟩ := iha
    obtain ⟨k', hk'⟩ := ihb
    exact ⟨k + k', leftBelow_mono (by omega) hk, fun _ => leftBelow_mono (by omega) hk'⟩
  | alt a b iha ihb =>
    obtain ⟨k, hk⟩ := iha
    obtain ⟨k', hk'⟩ := ihb
    exact ⟨k + k', leftBelow_mono (by omega) hk, leftBelow_mono (by omega) hk'⟩
  | star a ih => exact ih
  | not a ih => exact ih

/-- Without left recursion and with loops that move, every expression has a result. -/
theorem halts_of (hN : ∀ i, (R i).nullable N = true → N i = true) (hl : ∀ i, (R i).loopsMove N)
    (hr : ∀ i, (R i).leftBelow N rank (rank i)) (he : e.loopsMove N) : Halts R e := by
  have key : ∀ n k (e : Peg ι), e.loopsMove N → e.leftBelow N rank k → ∀ x : List ι, x.length = n → ∃ r, Ford R e x r := by
    intro n
    induction n using Nat.strongRecOn with
    | ind n ihn =>
      intro k
      induction k using Nat.strongRecOn with
      | ind k ihk =>
        have short : ∀ (e : Peg ι), e.loopsMove N → ∀ x : List ι, x.length < n → ∃ r, Ford R e x r := fun e he x hx => by
          obtain ⟨k, hk⟩ := leftBelow_some N rank e
          exact ihn _ hx k e he hk x rfl
        intro e
        induction e with
        | eps => exact fun _ _ x _ => ⟨_, .eps⟩
        | cls f =>
          intro _ _ x _
          cases x with
          | nil => exact ⟨_, .cls_end⟩
          | cons c x =>
            cases h : f c with
            | true => exact ⟨_, .cls_ok h⟩
            | false => exact ⟨_, .cls_no h⟩
        | nt i =>
          intro _ hk x hx
          obtain ⟨r, h⟩ := ihk (rank i) hk (R i) (hl i) (hr i) x hx
          exact ⟨r, .nt h⟩
        | seq a b iha ihb =>
          intro hm hk x hx
          obtain ⟨r, h⟩ := iha hm.1 hk.1 x hx
          cases r with
          | none => exact ⟨_, .seq_fail h⟩
          | some y =>
            obtain ⟨w, rfl, hw⟩ := ford_derives h
            cases w with
            | nil =>
              obtain ⟨r, h'⟩ := ihb hm.2 (hk.2 (nullable_of hN hw)) y hx
              exact ⟨r, .seq_ok h h'⟩
            | cons c w =>
              obtain ⟨r, h'⟩ := short b hm.2 y (by simp at hx; omega)
              exact ⟨r, .seq_ok h h'⟩
        | alt a b iha ihb =>
          intro hm hk x hx
          obtain ⟨r, h⟩ := iha hm.1 hk.1 x hx
          cases r with
          | some y => exact ⟨_, .alt_1 h⟩
          | none =>
            obtain ⟨r, h'⟩ := ihb hm.2 hk.2 x hx
            exact ⟨r, .alt_2 h h'⟩
        | star a ih =>
          intro hm hk x hx
          obtain ⟨r, h⟩ := ih hm.2 hk x hx
          cases r with
          | none => exact ⟨_, .star_end h⟩
          | some y =>
            obtain ⟨w, rfl, hw⟩ := ford_derives h
            cases w with
            | nil => have := nullable_of hN hw; rw [hm.1] at this; cases this
            | cons c w =>
              obtain ⟨r, h'⟩ := short (.star a) hm y (by simp at hx; omega)
              exact ⟨r, .star_more h h'⟩
        | not a ih =>
          intro hm hk x hx
          obtain ⟨r, h⟩ := ih hm hk x hx
          cases r with
          | none => exact ⟨_, .not_ok h⟩
          | some y => exact ⟨_, .not_fail h⟩
  intro x
  obtain ⟨k, hk⟩ := leftBelow_some N rank e
  exact key x.length k e he hk x rfl

/-- **C79 (tables).** If the tables have no conflict, one item of lookahead decides. -/
theorem C79_tables (h : Tables R N T O rank) :
    Predictive R (fun e x => ∃ H, e.noConflict R N T O H ∧ e.loopsMove N ∧ H x) := by
  have hh : ∀ {e : Peg ι}, e.loopsMove N → Halts R e := fun he => halts_of h.nullable h.loops h.ranked he
  have nn : ∀ {e : Peg ι}, e.nullable N = false → ¬ Nullable R e := fun he hn => by
    have := nullable_of h.nullable hn; rw [he] at this; cases this
  have ff : ∀ {e : Peg ι} {x}, Starts R e x → e.first N T x = true := first_of h.nullable h.first
  refine ⟨?_, ?_, ?_, ?_, ?_, ?_, ?_, ?_, ?_, ?_, ?_⟩
  · rintro i x ⟨H, h1, _, h3⟩
    exact ⟨O i, h.follow i, h.loops i, h1 x h3⟩
  · rintro a b x c ⟨H, h1, h2, h3⟩ hs
    exact ⟨_, h1.2, h2.1, .inl ⟨c, rfl, ff hs⟩⟩
  · rintro a b x ⟨H, h1, h2, h3⟩ hn
    exact ⟨_, h1.2, h2.1, .inr ⟨nullable_of h.nullable hn, h3⟩⟩
  · rintro a b x ⟨H, h1, h2, h3⟩
    exact ⟨H, h1.1, h2.2, h3⟩
  · rintro a b x ⟨H, h1, h2, h3⟩
    exact ⟨H, h1.1, h2.1, h3⟩
  · rintro a b x ⟨H, h1, h2, h3⟩
    exact ⟨H, h1.2.1, h2.2, h3⟩
  · rintro a b x ⟨H, h1, h2, h3⟩
    refine ⟨hh h2.1, nn h1.2.2.1, fun c hc => ?_⟩
    obtain ⟨h4, h5⟩ := h1.2.2.2 c (ff hc)
    refine ⟨fun hb => ?_, fun hb he => h5 (nullable_of h.nullable hb) (he ▸ h3)⟩
    have := ff hb; rw [h4] at this; cases this
  · rintro a x c ⟨H, h1, h2, h3⟩ hs
    exact ⟨_, h1.2.2, h2.2, .inl ⟨c, rfl, ff hs⟩⟩
  · rintro a x ⟨H, h1, h2, h3⟩
    exact ⟨_, h1.2.2, h2.2, .inr h3⟩
  · rintro a x ⟨H, h1, h2, h3⟩
    exact ⟨hh h2.2, nn h1.1, fun c hc he => h1.2.1 c (ff hc) (he ▸ h3)⟩
  · rintro a x ⟨H, h1, h2, h3⟩ ha y hy
    exact (h1.resolve_left ha) y (hy ▸ h3)

end Peg

variable {ι β : Type} [Item ι] {G : Rules ι β} {R : Nat → Peg ι} {p : Pat ι β} {e : Peg ι}
  {F : Peg ι → Option ι → Prop}

/-- **C79 (nothing else is matched).** What a pattern matches is a text of its context-free
grammar. -/
theorem C79_sound (hG : RulesAsPeg G R) (hp : AsPeg p e) (pre x : List ι) {s : Span} {o' : Nat}
    (h : Runs G none (pre ++ x) p (blen pre) (.ok s o')) :
    ∃ w y, x = w ++ y ∧ Derives R e w ∧ s = ⟨blen pre, blen w⟩ ∧ o' = blen pre + blen w := by
  obtain ⟨t, y, rfl, hf, h1, h2⟩ := ((C58_peg hG hp pre x).1 s o').mp h
  obtain ⟨w, hw, hd⟩ := ford_derives hf
  exact ⟨t, y, rfl, by rwa [List.append_cancel_right hw], h1, h2⟩

/-- **C79 (everything is matched).** Where one item of lookahead decides, every text of the
context-free grammar is matched, in front of everything that may follow it. -/
theorem C79_predictive (hG : RulesAsPeg G R) (hp : AsPeg p e) (hF : Predictive R F) (pre w y : List ι)
    (hw : Derives R e w) (hy : F e y.head?) :
    Runs G none (pre ++ (w ++ y)) p (blen pre) (.ok ⟨blen pre, blen w⟩ (blen pre + blen w)) :=
  ((C58_peg hG hp pre (w ++ y)).1 _ _).mpr ⟨w, y, rfl, derives_ford hF hw y hy, rfl, rfl⟩

theorem blen_full {t y : List ι} (h : blen (t ++ y) = blen t) : y = [] := by
  cases y with
  | nil => rfl
  | cons c y =>
    rw [blen_append, blen_cons] at h
    have := Item.size_pos c
    omega

/-- **C79 (whole texts).** A predictive grammar accepts a text exactly if the context-free
grammar derives it. -/
theorem C79_whole (hG : RulesAsPeg G R) (hp : AsPeg p e) (hF : Predictive R F) (he : F e none) (x : List ι) :
    (∃ s, Runs G none x p 0 (.ok s (blen x))) ↔ Derives R e x := by
  constructor
  · rintro ⟨s, h⟩
    obtain ⟨w, y, rfl, hd, -, ho⟩ := C79_sound hG hp [] x h
    have : y = [] := blen_full (t := w) (by simpa using ho)
    subst this
    rwa [List.append_nil]
  · intro h
    have := C79_predictive hG hp hF [] x [] h he
    simp only [List.nil_append, List.append_nil, blen_nil, Nat.zero_add] at this
    exact ⟨_, this⟩

/-- **C79 (only the language matters).** Two predictive grammars for the same language, for
instance with alternatives in another order, accept the same texts. -/
theorem C79_same_language {G' : Rules ι β} {R' : Nat → Peg ι} {p' : Pat ι β} {e' : Peg ι} {F' : Peg ι → Option ι → Prop}
    (hG : RulesAsPeg G R) (hp : AsPeg p e) (hF : Predictive R F) (he : F e none)
    (hG' : RulesAsPeg G' R') (hp' : AsPeg p' e') (hF' : Predictive R' F') (he' : F' e' none)
    (h : ∀ x, Derives R e x ↔ Derives R' e' x) (x : List ι) :
    (∃ s, Runs G none x p 0 (.ok s (blen x))) ↔ ∃ s, Runs G' none x p' 0 (.ok s (blen x)) :=
  (C79_whole hG hp hF he x).trans ((h x).trans (C79_whole hG' hp' hF' he' x).symm)

theorem derives_alt {a b : Peg ι} {w} : Derives R (.alt a b) w ↔ Derives R a w ∨ Derives R b w := by
  constructor
  · intro h
    cases h with
    | left h => exact .inl h
    | right h => exact .inr h
  · rintro (h | h)
    · exact .left h
    · exact .right h

theorem derives_seq {a b : Peg ι} {u} : Derives R (.seq a b) u ↔ ∃ w v, u = w ++ v ∧ Derives R a w ∧ Derives R b v := by
  constructor
  · intro h
    cases h with
    | seq h1 h2 => exact ⟨_, _, rfl, h1, h2⟩
  · rintro ⟨w, v, rfl, h1, h2⟩; exact .seq h1 h2

theorem derives_star_mono {a a' : Peg ι} (h : ∀ w, Derives R a w → Derives R a' w) {u}
    (hu : Derives R (.star a) u) : Derives R (.star a') u := by
  generalize he : Peg.star a = e at hu
  induction hu with
  | stop => exact .stop
  | more h1 _ _ ih => cases he; exact .more (h _ h1) (ih rfl)
  | _ => cases he

theorem derives_reordered {a a' : Peg ι} (h : Reordered a a') : ∀ w, Derives R a w ↔ Derives R a' w := by
  induction h with
  | refl => exact fun _ => Iff.rfl
  | symm _ ih => exact fun w => (ih w).symm
  | trans _ _ ih1 ih2 => exact fun w => (ih1 w).trans (ih2 w)
  | swap => exact fun w => by rw [derives_alt, derives_alt, or_comm]
  | group => exact fun w => by rw [derives_alt, derives_alt, derives_alt, derives_alt, or_assoc]
  | alt _ _ ih1 ih2 => exact fun w => by rw [derives_alt, derives_alt, ih1, ih2]
  | seq _ _ ih1 ih2 => exact fun w => by simp only [derives_seq, ih1, ih2]
  | star _ ih => exact fun w => ⟨derives_star_mono fun w => (ih w).mp, derives_star_mono fun w => (ih w).mpr⟩

theorem derives_rules {R' : Nat → Peg ι} (h : ∀ i w, Derives R' (R i) w → Derives R' (R' i) w) {w : List ι}
    (hw : Derives R e w) : Derives R' e w := by
  induction hw with
  | eps => exact .eps
  | cls h => exact .cls h
  | nt _ ih => exact .nt (h _ _ ih)
  | seq _ _ ih1 ih2 => exact .seq ih1 ih2
  | left _ ih => exact .left ih
  | right _ ih => exact .right ih
  | stop => exact .stop
  | more _ _ ih1 ih2 => exact .more ih1 ih2
  | ahead h => exact .ahead h

/-- **C79 (order does not matter).** Reordering alternatives anywhere in a grammar does not
change what it accepts, as long as one item of lookahead decides in both orders. -/
theorem C79_order {G' : Rules ι β} {R' : Nat → Peg ι} {p' : Pat ι β} {e' : Peg ι} {F' : Peg ι → Option ι → Prop}
    (hG : RulesAsPeg G R) (hp : AsPeg p e) (hF : Predictive R F) (he : F e none)
    (hG' : RulesAsPeg G' R') (hp' : AsPeg p' e') (hF' : Predictive R' F') (he' : F' e' none)
    (hR : ∀ i, Reordered (R i) (R' i)) (hr : Reordered e e') (x : List ι) :
    (∃ s, Runs G none x p 0 (.ok s (blen x))) ↔ ∃ s, Runs G' none x p' 0 (.ok s (blen x)) := by
  refine C79_same_language hG hp hF he hG' hp' hF' he' (fun x => (derives_reordered hr x).trans ⟨?_, ?_⟩) x
  · exact derives_rules fun i w => (derives_reordered (hR i) w).mp
  · exact derives_rules fun i w => (derives_reordered (hR i) w).mpr

/-- **C79 (nothing else is matched, skipping).** Under a policy: a text of the grammar in which
the skipped part `W` stands in front of everything that is matched. -/
theorem C79_sound_skip {q : Pat ι β} {W : Peg ι} (hq : SkipReads G R q W) (hi : SkipOnce R W) (hG : RulesAsPegIn W G R)
    (hp : AsPegIn W p e) (pre x : List ι) {s : Span} {o' : Nat} (h : Runs G (some q) (pre ++ x) p (blen pre) (.ok s o')) :
    ∃ w y, x = w ++ y ∧ Derives R (.seq W e) w ∧ o' = blen pre + blen w := by
  obtain ⟨t, y, rfl, hf, h1⟩ := ((C62_skip_peg hq hi hG hp pre x).1 o').mp ⟨s, h⟩
  obtain ⟨w, hw, hd⟩ := ford_derives hf
  exact ⟨t, y, rfl, by rwa [List.append_cancel_right hw], h1⟩

/-- What a list of numbers with spaces anywhere but inside the numbers consumes. -/
example (x : List Char) {s : Span} {o' : Nat} (h : Runs G0 (some spaces) x Skip.numbers 0 (.ok s o')) :
    ∃ w y, x = w ++ y ∧ Derives (fun _ => .fail) (.seq Skip.blanks Skip.numbersPeg) w ∧ o' = blen w := by
  have hp : AsPegIn Skip.blanks Skip.numbers Skip.numbersPeg :=
    .enclose (.leaf trivial (.lit _)) (.sep 1 (.leaf trivial (.many1 _)) (.leaf trivial (.lit _)))
      (.leaf trivial (.lit _))
  simpa using C79_sound_skip (G := G0) (q := spaces) (W := Skip.blanks) (C62_skip_class G0 _ (.item ' ')).1
    (C62_skip_class (β := Nat) G0 _ (.item ' ')).2 (fun _ => .inr ⟨rfl, rfl⟩) hp [] x h

/-! ## Why a condition is needed -/

/-- **C79 (an earlier alternative hides a later one).** `("a" | "ab") "c"` derives `abc` and
does not match it. -/
theorem C79_hidden_counterexample :
    ∃ (p : Pat Char Nat) (e : Peg Char), AsPeg p e ∧ Derives (fun _ => .fail) e ['a', 'b', 'c'] ∧
      ∃ er o', Runs (G0 (β := Nat)) none ['a', 'b', 'c'] p 0 (.err er o') := by
  refine ⟨.thn (.or (.lit ['a']) (.lit ['a', 'b'])) (.lit ['c']), _, .thn (.or (.lit _) (.lit _)) (.lit _), ?_,
    .literal, 0, 10, rfl⟩
  have c : ∀ x : Char, Derives (fun _ => .fail) (.cls fun a => decide (a = x)) [x] := fun x => .cls (by simp)
  exact .seq (w := ['a', 'b']) (.right (.seq (w := ['a']) (c 'a') (.seq (w := ['b']) (c 'b') .eps)))
    (.seq (w := ['c']) (c 'c') .eps)

/-- **C79 (a loop takes what its successor needs).** `u* u` derives every nonempty text over
`u` and matches nothing at all. -/
theorem C79_greedy_counterexample (u : Neu ι) :
    ∃ e, AsPeg (β := β) (.thn (.many0 u .empty) (.once u .empty)) e ∧
      (∀ x w, (∀ c ∈ x :: w, u.isMatch c = true) → Derives R e (x :: w)) ∧
      (RulesAsPeg G R → ∀ pre x s o',
        ¬ Runs G none (pre ++ x) (.thn (.many0 u .empty) (.once u .empty)) (blen pre) (.ok s o')) := by
  refine ⟨_, .thn (.many0 u) (.once u), ?_, ?_⟩
  · have st : ∀ w : List ι, (∀ c ∈ w, u.isMatch c = true) → Derives R (.star (.cls u.isMatch)) w := by
      intro w
      induction w with
      | nil => exact fun _ => .stop
      | cons c w ih => exact fun h => .more (w := [c]) (.cls (h c (by simp))) (ih fun c hc => h c (by simp [hc]))
    intro x w h
    rw [← List.dropLast_concat_getLast (l := x :: w) (by simp)]
    exact .seq (st _ fun c hc => h c (List.dropLast_subset _ hc)) (.cls (h _ (List.getLast_mem _)))
  · intro hG pre x s o' h
    obtain ⟨t, y, -, hf, -⟩ := ((C58_peg hG (.thn (.many0 u) (.once u)) pre x).1 s o').mp h
    cases hf with
    | seq_ok h1 h2 =>
      rename_i y'
      have stuck : ∀ {e : Peg ι} {x r}, Ford R e x r → e = .star (.cls u.isMatch) → ∀ z, r = some z →
          Ford R (.cls u.isMatch) z none := by
        intro e x r h
        induction h with
        | star_end h => intro he z hz; cases he; cases hz; exact h
        | star_more _ _ _ ih => intro he z hz; cases he; exact ih rfl z hz
        | _ => intro he; cases he
      have h3 := stuck h1 rfl _ rfl
      have := h2.unique h3
      cases this

/-! ## Sums -/

namespace Sum

/-- `expr = term ("+" term)*` (handle 0), `term = "x" | "(" expr ")"` (handle 1). -/
def rules : Rules Char Nat
  | 0 => some (.thn (.cell 1) (.rep (.thn (.lit ['+']) (.cell 1)) ⟨.incl 0, .unb⟩))
  | 1 => some (.or (.lit ['x']) (.enclose (.lit ['(']) (.cell 0) (.lit [')'])))
  | _ => none

/-- Its grammar. -/
def grammar : Nat → Peg Char
  | 0 => .seq (.nt 1) (.star (.seq (.lit ['+']) (.nt 1)))
  | 1 => .alt (.lit ['x']) (.seq (.lit ['(']) (.seq (.nt 0) (.lit [')'])))
  | _ => .fail

theorem rules_as : RulesAsPeg rules grammar := by
  intro i
  match i with
  | 0 => exact .inl ⟨_, rfl, .thn (.cell 1) (.rep (e := .seq (.lit ['+']) (.nt 1)) _ 0 none (.thn (.lit _) (.cell 1))
      ⟨by simp, by simp [Bound.allowsFrom, Bound.allowsUpTo]⟩)⟩
  | 1 => exact .inl ⟨_, rfl, .or (.lit _) (.enclose (.lit _) (.cell 0) (.lit _))⟩
  | n + 2 => exact .inr ⟨rfl, rfl⟩

/-- Empty: neither. -/
def N (i : Nat) : Bool := decide (2 ≤ i)
/-- Both begin with `x` or `(`. -/
def T (i : Nat) (x : Char) : Bool := decide (i < 2) && (decide (x = 'x') || decide (x = '('))
/-- An expression is followed by the end or `)`, a term also by `+`. -/
def O (i : Nat) (h : Option Char) : Prop :=
  match i with
  | 0 => h = none ∨ h = some ')'
  | 1 => h = none ∨ h = some ')' ∨ h = some '+'
  | _ => True

theorem tables : Tables grammar N T O (fun i => if i = 0 then 1 else 0) := by
  refine ⟨?_, ?_, ?_, ?_, ?_⟩
  · intro i
    match i with
    | 0 => simp [grammar, Peg.nullable, N]
    | 1 => simp [grammar, Peg.nullable, N, Peg.lit]
    | i + 2 => simp [N]
  · intro i x
    match i with
    | 0 => simp [grammar, Peg.first, Peg.nullable, N, T]
    | 1 => simp [grammar, Peg.first, Peg.nullable, T, Peg.lit]
    | i + 2 => simp [grammar, Peg.first, Peg.fail]
  · intro i
    match i with
    | 0 => simp [grammar, Peg.loopsMove, Peg.nullable, N, Peg.lit]
    | 1 => simp [grammar, Peg.loopsMove, Peg.lit]
    | i + 2 => simp [grammar, Peg.loopsMove, Peg.fail]
  · intro i
    match i with
    | 0 => simp [grammar, Peg.leftBelow, Peg.nullable, N, Peg.lit]
    | 1 => simp [grammar, Peg.leftBelow, Peg.nullable, Peg.lit]
    | i + 2 => simp [grammar, Peg.leftBelow, Peg.fail]
  · intro i
    match i with
    | 0 => simp [grammar, Peg.noConflict, Peg.nullable, Peg.first, N, T, O, Peg.lit]
    | 1 => simp [grammar, Peg.noConflict, Peg.nullable, Peg.first, N, T, O, Peg.lit]
    | i + 2 => simp [grammar, Peg.noConflict, Peg.fail]

/-- The sums that are accepted are those of the context-free grammar. -/
example (x : List Char) :
    (∃ s, Runs rules none x (.cell 0) 0 (.ok s (blen x))) ↔ Derives grammar (.nt 0) x :=
  C79_whole rules_as (.cell 0) (C79_tables tables) ⟨fun h => h = none, by simp [Peg.noConflict, O], trivial, rfl⟩ x

/-- The same with the alternatives of a term in the other order. -/
def rules' : Rules Char Nat
  | 1 => some (.or (.enclose (.lit ['(']) (.cell 0) (.lit [')'])) (.lit ['x']))
  | i => rules i

def grammar' : Nat → Peg Char
  | 1 => .alt (.seq (.lit ['(']) (.seq (.nt 0) (.lit [')']))) (.lit ['x'])
  | i => grammar i

theorem rules_as' : RulesAsPeg rules' grammar' := by
  intro i
  match i with
  | 0 => exact rules_as 0
  | 1 => exact .inl ⟨_, rfl, .or (.enclose (.lit _) (.cell 0) (.lit _)) (.lit _)⟩
  | n + 2 => exact rules_as (n + 2)

theorem tables' : Tables grammar' N T O (fun i => if i = 0 then 1 else 0) := by
  refine ⟨?_, ?_, ?_, ?_, ?_⟩
  · intro i
    match i with
    | 0 => exact tables.nullable 0
    | 1 => simp [grammar', Peg.nullable, N, Peg.lit]
    | i + 2 => exact tables.nullable (i + 2)
  · intro i x
    match i with
    | 0 => exact tables.first 0 x
    | 1 => simp only [grammar', Peg.first, Peg.nullable, T, Peg.lit]; simp; exact Or.symm
    | i + 2 => exact tables.first (i + 2) x
  · intro i
    match i with
    | 0 => exact tables.loops 0
    | 1 => simp [grammar', Peg.loopsMove, Peg.lit]
    | i + 2 => exact tables.loops (i + 2)
  · intro i
    match i with
    | 0 => exact tables.ranked 0
    | 1 => simp [grammar', Peg.leftBelow, Peg.nullable, Peg.lit]
    | i + 2 => exact tables.ranked (i + 2)
  · intro i
    match i with
    | 0 => simp [grammar', grammar, Peg.noConflict, Peg.nullable, Peg.first, N, T, O, Peg.lit]
    | 1 => simp [grammar', Peg.noConflict, Peg.nullable, Peg.first, N, T, O, Peg.lit]
    | i + 2 => simp [grammar', grammar, Peg.noConflict, Peg.fail]

/-- Both accept the same sums. -/
example (x : List Char) :
    (∃ s, Runs rules none x (.cell 0) 0 (.ok s (blen x))) ↔ ∃ s, Runs rules' none x (.cell 0) 0 (.ok s (blen x)) := by
  have at_end : ∀ {R}, ∃ H, (Peg.nt 0 : Peg Char).noConflict R N T O H ∧ (Peg.nt 0 : Peg Char).loopsMove N ∧ H none :=
    fun {R} => ⟨fun h => h = none, by simp [Peg.noConflict, O], trivial, rfl⟩
  refine C79_order rules_as (.cell 0) (C79_tables tables) at_end rules_as' (.cell 0) (C79_tables tables') at_end
    (fun i => ?_) .refl x
  match i with
  | 0 => exact .refl
  | 1 => exact .swap
  | i + 2 => exact .refl

end Sum

end Neure
