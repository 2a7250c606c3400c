import Verif.SpaceErase
import Verif.PropsAttr
/-!
# C80: white space

In a context that skips blanks, texts that differ in their spacing only are matched alike
and give the same values; blanks that may be left out may be left out.
-/

namespace Neure

set_option linter.unusedSectionVars false
set_option linter.unusedSimpArgs false

open Demo

variable {ι β σ : Type} [Item ι] {G : Rules ι β} {R : Nat → Peg ι} {p : Pat ι β} {e : Peg ι}

/-! ## The relation -/

/-- **C80 (differing in spacing only).** It is an equivalence, and such texts are the same
without their blanks. -/
theorem C80_respaced (b : ι → Bool) (A : ι → ι → Prop) :
    (∀ x, Respaced b A x x) ∧ (∀ x y, Respaced b A x y → Respaced b A y x) ∧
    (∀ x y z, Respaced b A x y → Respaced b A y z → Respaced b A x z) ∧
    ∀ x y, Respaced b A x y → x.filter (fun c => !b c) = y.filter (fun c => !b c) := by
  refine ⟨fun x => Space.spaced_refl none x, fun x y => Space.spaced_symm, fun x y z => Space.spaced_trans, fun x y h => ?_⟩
  have blank : ∀ u : List ι, (∀ c ∈ u, b c = true) → u.filter (fun c => !b c) = [] := by
    intro u hu
    rw [List.filter_eq_nil_iff]
    intro c hc
    simp [hu c hc]
  unfold Respaced at h
  generalize none = p at h
  induction h with
  | tail h1 h2 => rw [blank _ h1, blank _ h2]
  | next h1 h2 h3 _ _ ih =>
    rw [List.filter_append, List.filter_append, blank _ h1, blank _ h2, List.filter_cons, List.filter_cons, ih]

/-! ## Matching -/

/-- **C80 (matching).** Skipping the items of the class `u`: what is matched of one text is
matched of every text that differs from it in its spacing only, and so do the rests; what
fails on one fails on the other.  (Every token contains no blanks, and nothing that may be
written apart.) -/
theorem C80_matching (u : Neu ι) (A : ι → ι → Prop) (hG : RulesAsPegIn (.star (.cls u.isMatch)) G R)
    (hp : AsPegIn (.star (.cls u.isMatch)) p e)
    (hR : ∀ i, Laid (.star (.cls u.isMatch)) (Peg.Lexeme u.isMatch A) true (R i))
    (he : Laid (.star (.cls u.isMatch)) (Peg.Lexeme u.isMatch A) true e)
    {x x' : List ι} (hx : Respaced u.isMatch A x x') (pre pre' : List ι) :
    (∀ t y s, x = t ++ y →
      Runs G (some (.many0 u .empty)) (pre ++ x) p (blen pre) (.ok s (blen pre + blen t)) →
      ∃ t' y' s', x' = t' ++ y' ∧ Respaced u.isMatch A y y' ∧
        Runs G (some (.many0 u .empty)) (pre' ++ x') p (blen pre') (.ok s' (blen pre' + blen t'))) ∧
    ((∃ er o, Runs G (some (.many0 u .empty)) (pre ++ x) p (blen pre) (.err er o)) →
      ∃ er o, Runs G (some (.many0 u .empty)) (pre' ++ x') p (blen pre') (.err er o)) := by
  obtain ⟨hq, hi⟩ := C62_skip_class G R u
  have same := fun {r} (h : Ford R (.seq (.star (.cls u.isMatch)) e) x r) =>
    (Space.laid_same (Space.gaps R u.isMatch A) (fun _ => Space.lexeme_alike R) hR h).1 (.skip he) x' hx
  obtain ⟨ok, er, -⟩ := C62_skip_peg hq hi hG hp pre x
  obtain ⟨ok', er', -⟩ := C62_skip_peg hq hi hG hp pre' x'
  constructor
  · intro t y s hxy h
    obtain ⟨t1, y1, h1, hf, ho⟩ := (ok _).mp ⟨s, h⟩
    obtain ⟨rfl, rfl⟩ : t = t1 ∧ y = y1 := by
      have hb : blen t = blen t1 := by omega
      have h2 := dropB_append t y
      have h3 := dropB_append t1 y1
      rw [← hxy, hb] at h2
      rw [← h1] at h3
      have hy : y = y1 := by rw [h2] at h3; exact Option.some.inj h3
      subst hy
      exact ⟨List.append_cancel_right (hxy.symm.trans h1), rfl⟩
    obtain ⟨r', h2, h3⟩ := same hf
    cases r' with
    | none => exact h3.elim
    | some y' =>
      obtain ⟨t', ht, -⟩ := ford_derives h2
      obtain ⟨s', h4⟩ := (ok' _).mpr ⟨t', y', ht, h2, rfl⟩
      exact ⟨t', y', s', ht, h3, h4⟩
  · rintro ⟨er1, o, h⟩
    obtain ⟨hf, -⟩ := (er o).mp ⟨er1, h⟩
    obtain ⟨r', h2, h3⟩ := same hf
    cases r' with
    | some y' => exact h3.elim
    | none =>
      have hw := Space.ford_blanks (R := R) (b := u.isMatch) x'
      obtain ⟨er2, h4⟩ := (er' _).mpr ⟨h2, x'.takeWhile u.isMatch, x'.dropWhile u.isMatch,
        List.takeWhile_append_dropWhile.symm, .alt_1 hw, rfl⟩
      exact ⟨er2, _, h4⟩

/-! ## Values -/

/-- **C80 (values).** With a handler that looks at the texts of the tokens only (such as
`ctx.ctor`'s), the same value is built. -/
theorem C80_values (u : Neu ι) (A : ι → ι → Prop) {V : Nat → VPeg ι β} {E : VPeg ι β} {H : Handler ι β σ}
    {g : List ι → β} (hG : RulesAsPegIn (.star (.cls u.isMatch)) G R)
    (hV : RulesAsVal (.skipping (.star (.cls u.isMatch))) G V)
    (hp : AsVal (.skipping (.star (.cls u.isMatch))) G p E)
    (hR : ∀ i, Laid (.star (.cls u.isMatch)) (Peg.Lexeme u.isMatch A) true (R i))
    (hVL : ∀ i, VLaid (.star (.cls u.isMatch)) (Peg.Lexeme u.isMatch A) (V i))
    (hE : VLaid (.star (.cls u.isMatch)) (Peg.Lexeme u.isMatch A) E)
    {x x' : List ι} (hx : Respaced u.isMatch A x x') (pre pre' : List ι)
    (hH : Handles H (pre ++ x) fun t _ => g t) (hH' : Handles H (pre' ++ x') fun t _ => g t) (st : σ) :
    (∀ v t y, x = t ++ y →
      Constructs G H (some (.many0 u .empty)) (pre ++ x) p st (blen pre) (.ok v st (blen pre + blen t)) →
      ∃ t' y', x' = t' ++ y' ∧ Respaced u.isMatch A y y' ∧
        Constructs G H (some (.many0 u .empty)) (pre' ++ x') p st (blen pre') (.ok v st (blen pre' + blen t'))) ∧
    ((∃ er st' o, Constructs G H (some (.many0 u .empty)) (pre ++ x) p st (blen pre) (.err er st' o)) →
      ∃ er st' o, Constructs G H (some (.many0 u .empty)) (pre' ++ x') p st (blen pre') (.err er st' o)) := by
  obtain ⟨hq, hi⟩ := C62_skip_class G R u
  have same := fun {r} (h : Yields R V (fun t _ => g t) E x r) =>
    Space.vlaid_same (Space.gaps R u.isMatch A) (fun _ => Space.lexeme_alike R) hR hVL (g' := fun t _ => g t)
      (fun _ _ _ => rfl) h hE x' hx
  obtain ⟨ok, er, -⟩ := C63_values_skipping hq hi hG hV pre x hH hp st
  obtain ⟨ok', er', pn', hl'⟩ := C63_values_skipping hq hi hG hV pre' x' hH' hp st
  constructor
  · intro v t y hxy h
    obtain ⟨t1, y1, h1, hf, -, ho⟩ := (ok _ _ _).mp h
    obtain ⟨rfl, rfl⟩ : t = t1 ∧ y = y1 := by
      have hb : blen t = blen t1 := by omega
      have h2 := dropB_append t y
      have h3 := dropB_append t1 y1
      rw [← hxy, hb] at h2
      rw [← h1] at h3
      have hy : y = y1 := by rw [h2] at h3; exact Option.some.inj h3
      subst hy
      exact ⟨List.append_cancel_right (hxy.symm.trans h1), rfl⟩
    obtain ⟨r', h2, h3⟩ := same hf
    match r', h2, h3 with
    | some (v', y'), h2, h3 =>
      obtain ⟨rfl, h4⟩ : v' = v ∧ Respaced u.isMatch A y y' := h3
      obtain ⟨res, hres⟩ := hl'.mpr ⟨_, h2⟩
      cases res with
      | panic => exact absurd hres pn'
      | err er1 st1 o1 => cases C63_yields_unique h2 (er'.mp ⟨_, _, _, hres⟩)
      | ok v1 st1 o1 =>
        obtain ⟨t', y1, ht, h5, rfl, rfl⟩ := (ok' _ _ _).mp hres
        cases C63_yields_unique h2 h5
        exact ⟨t', y', ht, h4, hres⟩
  · intro h
    obtain ⟨r', h2, h3⟩ := same (er.mp h)
    match r', h2, h3 with
    | none, h2, _ => exact er'.mpr h2

/-! ## When the conditions hold -/

/-- **C80 (layout).** A pattern reads as `Laid` asks when all its primitive parts are tokens. -/
theorem C80_laid {W : Peg ι} {L : Peg ι → Prop} (hG : RulesAsPegIn W G R) (hp : AsPegIn W p e)
    (h : All G (fun q => Primitive q → ∀ e, AsPeg q e → L e) p)
    (hr : ∀ i q, G i = some q → All G (fun q => Primitive q → ∀ e, AsPeg q e → L e) q) :
    Laid W L true e ∧ ∀ i, Laid W L true (R i) := by
  refine ⟨(Space.laid_as hp h).1, fun i => ?_⟩
  rcases hG i with ⟨q, hq, ha⟩ | ⟨_, he⟩
  · exact (Space.laid_as ha (hr i q hq)).1
  · rw [he]; exact .behind (.not .eps)

/-- An `a` and then the end. -/
example : Laid Skip.blanks (Peg.Lexeme (Neu.isMatch (.item ' ')) fun _ _ => True) true
    (.seq (.seq Skip.blanks (.lit ['a'])) (.seq Skip.blanks (.not .any))) := by
  refine (C80_laid (G := G0 (β := Nat)) (R := fun _ => .fail) (p := .thn (.lit ['a']) .anchorEnd) (fun _ => .inr ⟨rfl, rfl⟩)
    (.thn (.leaf trivial (.lit _)) (.leaf trivial .anchorEnd)) (.intro (fun h => h.elim) fun q hq => ?_) ?_).1
  · rcases hq with rfl | rfl
    · refine .intro (fun _ e he => ?_) fun q hq => hq.elim
      cases he
      refine .inl ⟨fun a ha => ?_, trivial, fun _ d _ _ => rfl⟩
      simp only [Neu.isMatch, decide_eq_true_eq] at ha
      subst ha
      decide
    · refine .intro (fun _ e he => ?_) fun q hq => hq.elim
      cases he
      exact .inr (.inl rfl)
  · intro i q hq
    cases hq

/-! ## Nothing to skip -/

/-- **C80 (nothing to skip).** Where there is nothing to skip, a context that skips does what a
plain one does. -/
theorem C80_nothing_to_skip {q : Pat ι β} {W : Peg ι} (hq : SkipReads G R q W) (hi : SkipOnce R W)
    (hG : RulesAsPegIn W G R) (hp : AsPegIn W p e) (pre x : List ι)
    (hx : ∀ t y, x = t ++ y → Ford R W y (some y)) :
    (∀ o, (∃ s, Runs G (some q) (pre ++ x) p (blen pre) (.ok s o)) ↔ ∃ s, Runs G none (pre ++ x) p (blen pre) (.ok s o)) ∧
    (∀ o, (∃ er, Runs G (some q) (pre ++ x) p (blen pre) (.err er o)) ↔
      ∃ er, Runs G none (pre ++ x) p (blen pre) (.err er o)) := by
  obtain ⟨R0, hG0, hR⟩ := Space.erased_rules hG
  obtain ⟨e0, hp0, he⟩ := Space.erased_as hp
  obtain ⟨ok, er, -⟩ := C62_skip_peg hq hi hG hp pre x
  obtain ⟨ok0, er0, -⟩ := C58_peg hG0 hp0 pre x
  have hW : ∀ y, (∀ t z, y = t ++ z → Ford R W z (some z)) → Ford R W y (some y) := fun y h => h [] y rfl
  have hP : ∀ t y, (∀ t' z, t ++ y = t' ++ z → Ford R W z (some z)) → ∀ t' z, y = t' ++ z → Ford R W z (some z) :=
    fun t y h t' z hz => h (t ++ t') z (by rw [hz, List.append_assoc])
  have same : ∀ r, Ford R (.seq W e) x r ↔ Ford R0 e0 x r := fun r =>
    ⟨fun h => Space.ford_erased hW hP hR h hx _ (.drop he),
      fun h => Space.erased_ford hW hP hR h hx _ (.drop he)⟩
  refine ⟨fun o => (ok o).trans ⟨?_, ?_⟩, fun o => (er o).trans (Iff.trans ⟨?_, ?_⟩ (er0 o).symm)⟩
  · rintro ⟨t, y, rfl, hf, rfl⟩
    exact ⟨_, (ok0 _ _).mpr ⟨t, y, rfl, (same _).mp hf, rfl, rfl⟩⟩
  · rintro ⟨s, h⟩
    obtain ⟨t, y, rfl, hf, rfl, rfl⟩ := (ok0 _ _).mp h
    exact ⟨t, y, rfl, (same _).mpr hf, rfl⟩
  · rintro ⟨hf, w, z, hz, hw, rfl⟩
    cases hw.unique (.alt_1 (hx [] x rfl))
    have : w = [] := by simpa using hz
    subst this
    exact ⟨(same _).mp hf, by simp⟩
  · rintro ⟨hf, rfl⟩
    exact ⟨(same _).mpr hf, [], x, rfl, .alt_1 (hx [] x rfl), by simp⟩

/-- **C80 (blanks left out).** A text is matched but for blanks at its end, in a context that
skips them, exactly if a plain context matches the whole of it written without blanks. -/
theorem C80_without_blanks (u : Neu ι) (A : ι → ι → Prop) (hG : RulesAsPegIn (.star (.cls u.isMatch)) G R)
    (hp : AsPegIn (.star (.cls u.isMatch)) p e)
    (hR : ∀ i, Laid (.star (.cls u.isMatch)) (Peg.Lexeme u.isMatch A) true (R i))
    (he : Laid (.star (.cls u.isMatch)) (Peg.Lexeme u.isMatch A) true e)
    {x x' : List ι} (hx : Respaced u.isMatch A x x') (hb : ∀ c ∈ x, u.isMatch c = false) (pre pre' : List ι) :
    (∃ t' y' s, x' = t' ++ y' ∧ (∀ c ∈ y', u.isMatch c = true) ∧
      Runs G (some (.many0 u .empty)) (pre' ++ x') p (blen pre') (.ok s (blen pre' + blen t'))) ↔
    ∃ s, Runs G none (pre ++ x) p (blen pre) (.ok s (blen pre + blen x)) := by
  obtain ⟨hq, hi⟩ := C62_skip_class G R u
  have plain := (C80_nothing_to_skip hq hi hG hp pre x fun t y hy => by
    have hy' : ∀ c ∈ y, u.isMatch c = false := fun c hc => hb c (by rw [hy]; exact List.mem_append_right _ hc)
    cases y with
    | nil => exact .star_end .cls_end
    | cons c y => exact .star_end (.cls_no (hy' c (by simp)))).1
  have rests : ∀ {y y' : List ι}, Respaced u.isMatch A y y' →
      y.filter (fun c => !u.isMatch c) = y'.filter (fun c => !u.isMatch c) := fun h => (C80_respaced u.isMatch A).2.2.2 _ _ h
  constructor
  · rintro ⟨t', y', s, hx', hy', h⟩
    obtain ⟨t, y, s', rfl, hy, h2⟩ := (C80_matching u A hG hp hR he (Space.spaced_symm hx) pre' pre).1 t' y' s hx' h
    have : y = [] := by
      have h3 := rests hy
      rw [List.filter_eq_nil_iff.mpr fun c hc => by simp [hy' c hc]] at h3
      cases y with
      | nil => rfl
      | cons c y =>
        have := hb c (by simp)
        simp [this] at h3
    subst this
    rw [List.append_nil] at h2 plain ⊢
    exact (plain _).mp ⟨s', h2⟩
  · intro h
    obtain ⟨s, h⟩ := (plain _).mpr h
    obtain ⟨t', y', s', hx', hy', h2⟩ := (C80_matching u A hG hp hR he hx pre pre').1 x [] s (by simp) h
    refine ⟨t', y', s', hx', fun c hc => ?_, h2⟩
    have h3 := List.filter_eq_nil_iff.mp (rests hy').symm c hc
    simpa using h3

/-- **C80 (written with blanks).** If one item of lookahead decides without blanks, then in a
context that skips blanks the accepted texts are those of the context-free grammar with blanks
between the tokens. -/
theorem C80_language (u : Neu ι) (A : ι → ι → Prop) (hG : RulesAsPegIn (.star (.cls u.isMatch)) G R)
    (hp : AsPegIn (.star (.cls u.isMatch)) p e)
    (hR : ∀ i, Laid (.star (.cls u.isMatch)) (Peg.Lexeme u.isMatch A) true (R i))
    (he : Laid (.star (.cls u.isMatch)) (Peg.Lexeme u.isMatch A) true e)
    {R0 : Nat → Peg ι} {e0 : Peg ι} {F : Peg ι → Option ι → Prop}
    (hG0 : RulesAsPeg G R0) (hp0 : AsPeg p e0) (hF : Predictive R0 F) (hF0 : F e0 none)
    {x x' : List ι} (hx : Respaced u.isMatch A x x') (hb : ∀ c ∈ x, u.isMatch c = false) :
    (∃ t' y' s, x' = t' ++ y' ∧ (∀ c ∈ y', u.isMatch c = true) ∧
      Runs G (some (.many0 u .empty)) x' p 0 (.ok s (blen t'))) ↔ Derives R0 e0 x := by
  rw [← C79_whole hG0 hp0 hF hF0 x]
  have := C80_without_blanks u A hG hp hR he hx hb [] []
  simpa using this

/-- **C80 (blanks anywhere).** If any two items may stand apart, every text differs in its
spacing only from the text without blanks. -/
theorem C80_anywhere (b : ι → Bool) (A : ι → ι → Prop) (hA : ∀ c d, A c d) (x : List ι) :
    Respaced b A (x.filter fun c => !b c) x := by
  unfold Respaced
  generalize none = p
  induction x generalizing p with
  | nil => exact .tail (by simp) (by simp)
  | cons c x ih =>
    cases hc : b c with
    | true =>
      have add : ∀ {p} {y x : List ι}, Spaced b A p y x → Spaced b A p y (c :: x) := by
        intro p y x h
        cases h with
        | tail h1 h2 => exact .tail h1 (by simpa [hc] using h2)
        | next h1 h2 h3 h4 h5 =>
          rename_i u u' _ _
          refine .next (u' := c :: u') h1 (by simpa [hc] using h2) h3 ?_ h5
          cases p with
          | none => exact .inr (.inl rfl)
          | some a => exact .inr (.inr ⟨a, rfl, hA _ _⟩)
      simpa [hc] using add (ih p)
    | false =>
      rw [List.filter_cons, if_pos (by simp [hc])]
      exact .next (u := []) (u' := []) (by simp) (by simp) hc (.inl ⟨fun _ => rfl, fun _ => rfl⟩) (ih (some c))

/-! ## Sums and trees -/

namespace Sum

/-- The grammar of sums (`Sum.rules`) with spaces skipped. -/
def spaced : Nat → Peg Char
  | 0 => .seq (.seq Skip.blanks (.nt 1)) (.seq Skip.blanks
      (.repIn Skip.blanks (.seq (.seq Skip.blanks (.lit ['+'])) (.seq Skip.blanks (.nt 1))) 0 none))
  | 1 => .alt (.seq Skip.blanks (.lit ['x'])) (.seq Skip.blanks (.seq (.seq Skip.blanks (.lit ['(']))
      (.seq (.seq Skip.blanks (.nt 0)) (.seq Skip.blanks (.lit [')'])))))
  | _ => .fail

theorem rules_spaced : RulesAsPegIn Skip.blanks rules spaced := by
  intro i
  match i with
  | 0 => exact .inl ⟨_, rfl, .thn (.cell 1) (.rep _ 0 none (.thn (.leaf trivial (.lit _)) (.cell 1))
      ⟨by simp, by simp [Bound.allowsFrom, Bound.allowsUpTo]⟩)⟩
  | 1 => exact .inl ⟨_, rfl, .or (.leaf trivial (.lit _)) (.enclose (.leaf trivial (.lit _)) (.cell 0) (.leaf trivial (.lit _)))⟩
  | n + 2 => exact .inr ⟨rfl, rfl⟩

theorem spaced_laid (i : Nat) :
    Laid Skip.blanks (Peg.Lexeme (Neu.isMatch (.item ' ')) fun _ _ => True) true (spaced i) := by
  have tok : ∀ c : Char, c ≠ ' ' → Peg.Token (Neu.isMatch (.item ' ')) (fun _ _ => True) (.lit [c]) := by
    intro c hc
    refine ⟨fun a ha => ?_, trivial, fun _ d _ _ => rfl⟩
    simp only [Neu.isMatch, decide_eq_true_eq] at ha
    subst ha
    simpa using fun h => hc h.symm
  match i with
  | 0 =>
    exact .behind (.seq (.skip (.nt 1)) (.skip (.behind (Space.laid_repIn
      (.behind (.seq (.skip (.token (.inl (tok '+' (by decide))))) (.skip (.nt 1)))) 0 none))))
  | 1 =>
    exact .behind (.alt (.skip (.token (.inl (tok 'x' (by decide))))) (.skip (.behind (.seq (.skip (.token (.inl (tok '(' (by decide)))))
      (.seq (.skip (.nt 0)) (.skip (.token (.inl (tok ')' (by decide))))))))))
  | n + 2 => exact .behind (.not .eps)

/-- Every text `x`, with spaces wherever one likes: it is accepted, but for spaces at its end,
exactly if it is a sum without them. -/
example (x : List Char) :
    (∃ t y s, x = t ++ y ∧ (∀ c ∈ y, Neu.isMatch (.item ' ') c = true) ∧
      Runs rules (some (.many0 (.item ' ') .empty)) x (.cell 0) 0 (.ok s (blen t))) ↔
    Derives grammar (.nt 0) (x.filter fun c => !Neu.isMatch (.item ' ') c) :=
  C80_language (.item ' ') (fun _ _ => True) rules_spaced (.cell 0) spaced_laid (.nt 0) rules_as (.cell 0)
    (C79_tables tables) ⟨fun h => h = none, by simp [Peg.noConflict, O], trivial, rfl⟩
    (C80_anywhere _ _ (fun _ _ => trivial) x) (by simp)

end Sum

namespace Attr

/-- Parentheses may stand next to anything. -/
def Apart (c d : Char) : Prop := c ∈ ['(', ')'] ∨ d ∈ ['(', ')']

theorem word_token : Peg.Token (Neu.isMatch (.item ' ')) Apart (.plus (.cls Char.isAlpha)) := by
  have h : ∀ c d, Apart c d → Char.isAlpha c = true → Char.isAlpha d = false := by
    intro c d h hc
    rcases h with h | h
    · simp only [List.mem_cons, List.not_mem_nil, or_false] at h
      rcases h with rfl | rfl <;> simp at hc
    · simp only [List.mem_cons, List.not_mem_nil, or_false] at h
      rcases h with rfl | rfl <;> decide
  have hb : ∀ c, Neu.isMatch (.item ' ') c = true → Char.isAlpha c = false := by
    intro c hc
    simp only [Neu.isMatch, decide_eq_true_eq] at hc
    subst hc
    decide
  refine ⟨hb, ⟨hb, h⟩, ?_⟩
  intro c d h1 h2
  simpa [Peg.begins, Peg.first] using h c d h1 h2

theorem paren_token (c : Char) (hc : c ≠ ' ') : Peg.Token (Neu.isMatch (.item ' ')) Apart (.lit [c]) := by
  refine ⟨fun a ha => ?_, trivial, fun _ d _ _ => rfl⟩
  simp only [Neu.isMatch, decide_eq_true_eq] at ha
  subst ha
  simpa using fun h => hc h.symm

theorem tree_laid (i : Nat) : Laid blanks (Peg.Lexeme (Neu.isMatch (.item ' ')) Apart) true (treePeg i) := by
  by_cases h : i = 0
  · subst h
    exact .behind (.alt (.skip (.behind (.seq (.skip (.token (.inl (paren_token '(' (by decide))))) (.seq (.skip (.behind
      (.seq (.skip (.nt 0)) (.skip (.nt 0))))) (.skip (.token (.inl (paren_token ')' (by decide)))))))))
      (.skip (.token (.inl word_token))))
  · rw [treePeg, if_neg h]
    exact .behind (.not .eps)

theorem tree_vlaid (i : Nat) : VLaid blanks (Peg.Lexeme (Neu.isMatch (.item ' ')) Apart) (treeVal i) := by
  by_cases h : i = 0
  · subst h
    exact .alt (.after (.skip (.token (.inl (paren_token '(' (by decide))))) (.before (.pair (.nt 0) (.nt 0))
      (.skip (.token (.inl (paren_token ')' (by decide))))))) (.text (.inl word_token))
  · rw [treeVal, if_neg h]
    exact .fail

/-- However the tree is spaced: spaces may be added and left out next to parentheses, and there
may be more of them where there is one. -/
example (x : List Char) (hx : Respaced (Neu.isMatch (.item ' ')) Apart "(a(b cd))".toList x) :
    ∃ t y, x = t ++ y ∧ (∀ c ∈ y, Neu.isMatch (.item ' ') c = true) ∧
      Constructs (σ := Unit) tree extractH (some (.many0 (.item ' ') .empty)) x (.cell 0) () 0
        (.ok (.pair (.base ['a']) (.pair (.base ['b']) (.base ['c', 'd']))) () (blen t)) := by
  obtain ⟨t, y, h1, h2, h3⟩ := (C80_values (H := extractH) (g := fun t => t) (.item ' ') Apart tree_peg tree_val (.cell 0) tree_laid
    tree_vlaid (.nt 0) hx [] [] (C63_handles_extract _) (C63_handles_extract _) ()).1 _ "(a(b cd))".toList [] (by simp)
    (⟨14, by decide +kernel⟩ : Constructs (σ := Unit) tree extractH (some (.many0 (.item ' ') .empty))
      "(a(b cd))".toList (.cell 0) () 0 (.ok (.pair (.base ['a']) (.pair (.base ['b']) (.base ['c', 'd']))) () 9))
  refine ⟨t, y, h1, fun c hc => ?_, by simpa using h3⟩
  have h4 := List.filter_eq_nil_iff.mp ((C80_respaced _ _).2.2.2 _ _ h2).symm c hc
  simpa using h4

/-- One such text. -/
example : Respaced (Neu.isMatch (.item ' ')) Apart ['(', 'a', '(', 'b', ' ', 'c', 'd', ')', ')']
    [' ', '(', ' ', 'a', ' ', '(', 'b', ' ', ' ', 'c', 'd', ')', ' ', ')'] := by
  have b1 : ∀ c ∈ ([] : List Char), Neu.isMatch (.item ' ') c = true := by simp
  have b2 : ∀ c ∈ [' '], Neu.isMatch (.item ' ') c = true := by decide
  have b3 : ∀ c ∈ [' ', ' '], Neu.isMatch (.item ' ') c = true := by decide
  have s : ∀ c : Char, c ∈ ['(', ')', 'a', 'b', 'c', 'd'] → Neu.isMatch (.item ' ') c = false := by decide
  refine .next (u := []) (u' := [' ']) b1 b2 (s '(' (by simp)) (.inr (.inl rfl)) ?_
  refine .next (u := []) (u' := [' ']) b1 b2 (s 'a' (by simp)) (.inr (.inr ⟨_, rfl, .inl (by simp)⟩)) ?_
  refine .next (u := []) (u' := [' ']) b1 b2 (s '(' (by simp)) (.inr (.inr ⟨_, rfl, .inr (by simp)⟩)) ?_
  refine .next (u := []) (u' := []) b1 b1 (s 'b' (by simp)) (.inl (by simp)) ?_
  refine .next (u := [' ']) (u' := [' ', ' ']) b2 b3 (s 'c' (by simp)) (.inl (by simp)) ?_
  refine .next (u := []) (u' := []) b1 b1 (s 'd' (by simp)) (.inl (by simp)) ?_
  refine .next (u := []) (u' := []) b1 b1 (s ')' (by simp)) (.inl (by simp)) ?_
  refine .next (u := []) (u' := [' ']) b1 b2 (s ')' (by simp)) (.inr (.inr ⟨_, rfl, .inl (by simp)⟩)) ?_
  exact .tail b1 b1

end Attr

/-! ## What is asked of tokens -/

/-- **C80 (blanks inside a token).** A literal with a blank in it is matched with exactly that
blank. -/
theorem C80_inside_counterexample :
    Respaced (Neu.isMatch (.item ' ')) (fun _ _ => False) ['a', ' ', 'b'] ['a', ' ', ' ', 'b'] ∧
    AsPegIn Skip.blanks (.lit ['a', ' ', 'b'] : Pat Char Nat) (.lit ['a', ' ', 'b']) ∧
    (∃ s, Runs (G0 (β := Nat)) (some spaces) ['a', ' ', 'b'] (.lit ['a', ' ', 'b']) 0 (.ok s 3)) ∧
    ∃ er o, Runs (G0 (β := Nat)) (some spaces) ['a', ' ', ' ', 'b'] (.lit ['a', ' ', 'b']) 0 (.err er o) := by
  refine ⟨?_, .leaf trivial (.lit _), ⟨_, 10, rfl⟩, _, _, 10, rfl⟩
  exact .next (u := []) (u' := []) (by simp) (by simp) (by decide) (.inr (.inl rfl))
    (.next (u := [' ']) (u' := [' ', ' ']) (by decide) (by decide) (by decide) (.inl (by simp)) (.tail (by simp) (by simp)))

/-- **C80 (blanks are never needed).** A keyword need not be set apart from what follows it:
skipping `if` and then a word matches `ifx` as it matches `if x`. -/
theorem C80_keyword_counterexample :
    ∃ p : Pat Char Nat, p = .thn (.lit ['i', 'f']) (.many1 (.pred Char.isAlpha) .empty) ∧
      (∃ s, Runs (G0 (β := Nat)) (some spaces) ['i', 'f', ' ', 'x'] p 0 (.ok s 4)) ∧
      ∃ s, Runs (G0 (β := Nat)) (some spaces) ['i', 'f', 'x'] p 0 (.ok s 3) :=
  ⟨_, rfl, ⟨_, 10, rfl⟩, _, 10, rfl⟩

end Neure
