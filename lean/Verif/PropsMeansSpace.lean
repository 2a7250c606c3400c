import Verif.ValErase
import Verif.PropsSpace

/-!
# C90: values of texts written with blanks

C80 says that spacing does not matter to matching and to values, C83 that a grammar without
conflicts builds the values of the derivations.  Together: what is built of a text written with
blanks, in a context that skips them, is what the (context-free) grammar means by the text
without its blanks.
-/

namespace Neure

set_option linter.unusedSectionVars false
set_option linter.unusedSimpArgs false

open Demo

variable {ι β σ : Type} [Item ι] {G : Rules ι β} {R : Nat → Peg ι} {V : Nat → VPeg ι β} {p : Pat ι β}
  {e : Peg ι} {E : VPeg ι β} {H : Handler ι β σ}

/-! ## Nothing to skip -/

/-- **C90 (nothing to skip).** Where there is nothing to skip, a context that skips builds what a
plain one builds, and fails where it fails. -/
theorem C90_nothing_to_skip {q : Pat ι β} {W : Peg ι} {g : List ι → List ι → β} (hq : SkipReads G R q W)
    (hi : SkipOnce R W) (hG : RulesAsPegIn W G R) (hV : RulesAsVal (.skipping W) G V) (hp : AsVal (.skipping W) G p E)
    (pre x : List ι) (hH : Handles H (pre ++ x) g) (st : σ) (hx : ∀ t y, x = t ++ y → Ford R W y (some y)) :
    (∀ v st' o, Constructs G H (some q) (pre ++ x) p st (blen pre) (.ok v st' o) ↔
      Constructs G H none (pre ++ x) p st (blen pre) (.ok v st' o)) ∧
    ((∃ er st' o, Constructs G H (some q) (pre ++ x) p st (blen pre) (.err er st' o)) ↔
      ∃ er st' o, Constructs G H none (pre ++ x) p st (blen pre) (.err er st' o)) := by
  have hW : ∀ y, (∀ t z, y = t ++ z → Ford R W z (some z)) → Ford R W y (some y) := fun y h => h [] y rfl
  have hP : ∀ t y, (∀ t' z, t ++ y = t' ++ z → Ford R W z (some z)) → ∀ t' z, y = t' ++ z → Ford R W z (some z) :=
    fun t y h t' z hz => h (t ++ t') z (by rw [hz, List.append_assoc])
  obtain ⟨R0, hG0, hR⟩ := Space.erased_rules hG
  obtain ⟨V0, hV0, hVS⟩ := Space.rules_plain hW hP hR hV
  obtain ⟨E0, hp0, hE⟩ := Space.val_plain hW hP hR hp
  have same : ∀ r, Yields R V g E x r ↔ Yields R0 V0 g E0 x r := fun r =>
    ⟨fun h => Space.yields_same hP hVS h hx _ hE,
      fun h => Space.yields_same hP (fun i => (hVS i).symm) h hx _ hE.symm⟩
  obtain ⟨ok, er, -⟩ := C63_values_skipping hq hi hG hV pre x hH hp st
  obtain ⟨ok0, er0, -⟩ := C63_values hG0 hV0 pre x hH hp0 st
  refine ⟨fun v st' o => ?_, ?_⟩
  · rw [ok, ok0]
    simp only [same]
  · rw [er, er0, same]

/-! ## Blanks left out -/

/-- **C90 (blanks left out).** In a context that skips blanks a value is built of a text, but for
blanks at its end, exactly if a plain context builds this value of the whole text written without
blanks. -/
theorem C90_without_blanks (u : Neu ι) (A : ι → ι → Prop) {g : List ι → β}
    (hG : RulesAsPegIn (.star (.cls u.isMatch)) G R)
    (hV : RulesAsVal (.skipping (.star (.cls u.isMatch))) G V)
    (hp : AsVal (.skipping (.star (.cls u.isMatch))) G p E)
    (hR : ∀ i, Laid (.star (.cls u.isMatch)) (Peg.Lexeme u.isMatch A) true (R i))
    (hVL : ∀ i, VLaid (.star (.cls u.isMatch)) (Peg.Lexeme u.isMatch A) (V i))
    (hE : VLaid (.star (.cls u.isMatch)) (Peg.Lexeme u.isMatch A) E)
    {x x' : List ι} (hx : Respaced u.isMatch A x x') (hb : ∀ c ∈ x, u.isMatch c = false) (pre pre' : List ι)
    (hH : Handles H (pre ++ x) fun t _ => g t) (hH' : Handles H (pre' ++ x') fun t _ => g t) (st : σ) (v : Val β) :
    (∃ t' y', x' = t' ++ y' ∧ (∀ c ∈ y', u.isMatch c = true) ∧
      Constructs G H (some (.many0 u .empty)) (pre' ++ x') p st (blen pre') (.ok v st (blen pre' + blen t'))) ↔
    Constructs G H none (pre ++ x) p st (blen pre) (.ok v st (blen pre + blen x)) := by
  obtain ⟨hq, hi⟩ := C62_skip_class G R u
  have plain := (C90_nothing_to_skip hq hi hG hV hp pre x hH st fun t y hy => by
    have hy' : ∀ c ∈ y, u.isMatch c = false := fun c hc => hb c (by rw [hy]; exact List.mem_append_right _ hc)
    cases y with
    | nil => exact .star_end .cls_end
    | cons c y => exact .star_end (.cls_no (hy' c (by simp)))).1
  rw [← plain]
  constructor
  · rintro ⟨t', y', hxy, hy', h⟩
    obtain ⟨t, y, h1, h2, h3⟩ := (C80_values u A hG hV hp hR hVL hE ((C80_respaced _ _).2.1 _ _ hx) pre' pre
      hH' hH st).1 v t' y' hxy h
    have h4 := (C80_respaced _ _).2.2.2 _ _ h2
    have hyn : y = [] := by
      have hy1 : y'.filter (fun c => !u.isMatch c) = [] := by
        rw [List.filter_eq_nil_iff]; intro c hc; simp [hy' c hc]
      rw [hy1] at h4
      cases y with
      | nil => rfl
      | cons c y =>
        have := List.filter_eq_nil_iff.mp h4.symm c (by simp)
        rw [hb c (by rw [h1]; simp)] at this
        exact absurd rfl this
    subst hyn
    rw [List.append_nil] at h1
    rw [h1] at h3 ⊢
    exact h3
  · intro h
    obtain ⟨t', y', h1, h2, h3⟩ := (C80_values u A hG hV hp hR hVL hE hx pre pre' hH hH' st).1 v x [] (by simp) h
    refine ⟨t', y', h1, fun c hc => ?_, h3⟩
    have h4 := List.filter_eq_nil_iff.mp ((C80_respaced _ _).2.2.2 _ _ h2).symm c hc
    simpa using h4

/-! ## The meaning of a spaced text -/

section
variable {R0 : Nat → Peg ι} {V0 : Nat → VPeg ι β} {E0 : VPeg ι β} {g : List ι → β}

/-- **C90 (whole texts).** If one item of lookahead decides without blanks, then in a context that
skips blanks the value `v` is built of a text, but for blanks at its end, exactly if the text
without blanks has a derivation with the value `v`. -/
theorem C90_whole (u : Neu ι) (A : ι → ι → Prop)
    (hG : RulesAsPegIn (.star (.cls u.isMatch)) G R)
    (hV : RulesAsVal (.skipping (.star (.cls u.isMatch))) G V)
    (hp : AsVal (.skipping (.star (.cls u.isMatch))) G p E)
    (hR : ∀ i, Laid (.star (.cls u.isMatch)) (Peg.Lexeme u.isMatch A) true (R i))
    (hVL : ∀ i, VLaid (.star (.cls u.isMatch)) (Peg.Lexeme u.isMatch A) (V i))
    (hE : VLaid (.star (.cls u.isMatch)) (Peg.Lexeme u.isMatch A) E)
    {Q : VPeg ι β → Prop} {P : Peg ι → Option ι → Prop} {F : VPeg ι β → Option ι → Prop}
    (hG0 : RulesAsPeg G R0) (hV0 : RulesAsVal .plain G V0) (hp0 : AsVal .plain G p E0)
    (hQ : Steady R0 V0 (fun t _ => g t) Q) (hQE : Q E0) (hP : Predictive R0 P)
    (hF : Foreseen R0 V0 (fun t _ => g t) P F) (he : F E0 none)
    {x x' : List ι} (hx : Respaced u.isMatch A x x') (hb : ∀ c ∈ x, u.isMatch c = false)
    (hH : ∀ d, Handles H d fun t _ => g t) (st : σ) (v : Val β) :
    (∃ t' y', x' = t' ++ y' ∧ (∀ c ∈ y', u.isMatch c = true) ∧
      Constructs G H (some (.many0 u .empty)) x' p st 0 (.ok v st (blen t'))) ↔
    Means R0 V0 (fun t _ => g t) E0 x [] v := by
  rw [← C83_whole hG0 hV0 hp0 hQ hQE hP hF he x (hH x) st v]
  have := C90_without_blanks u A hG hV hp hR hVL hE hx hb [] [] (hH _) (hH _) st v
  simpa using this

/-- **C90 (tables, flat).** The same with the conditions read off tables (C83), where no recursive
handle occurs in delimiters and texts. -/
theorem C90_tables_flat (u : Neu ι) (A : ι → ι → Prop)
    (hG : RulesAsPegIn (.star (.cls u.isMatch)) G R)
    (hV : RulesAsVal (.skipping (.star (.cls u.isMatch))) G V)
    (hp : AsVal (.skipping (.star (.cls u.isMatch))) G p E)
    (hR : ∀ i, Laid (.star (.cls u.isMatch)) (Peg.Lexeme u.isMatch A) true (R i))
    (hVL : ∀ i, VLaid (.star (.cls u.isMatch)) (Peg.Lexeme u.isMatch A) (V i))
    (hE : VLaid (.star (.cls u.isMatch)) (Peg.Lexeme u.isMatch A) E)
    {N : Nat → Bool} {T : Nat → ι → Bool} {O : Nat → Option ι → Prop} {M : Nat → Prop} {S : Nat → ι → Prop}
    {U : Nat → Option ι → Prop} {rank rank' : Nat → Nat} {R' : Nat → Peg ι}
    (hG0 : RulesAsPeg G R') (hV0 : RulesAsVal .plain G V0) (hp0 : AsVal .plain G p E0)
    (hf : ∀ i, (V0 i).flat) (hfE : E0.flat) (h : VTables R0 V0 (fun t _ => g t) N T O M S U rank rank')
    (ht : E0.tidy R0 V0 (fun t _ => g t) N M) (he : E0.clear R0 N T O M S U (· = none))
    {x x' : List ι} (hx : Respaced u.isMatch A x x') (hb : ∀ c ∈ x, u.isMatch c = false)
    (hH : ∀ d, Handles H d fun t _ => g t) (st : σ) (v : Val β) :
    (∃ t' y', x' = t' ++ y' ∧ (∀ c ∈ y', u.isMatch c = true) ∧
      Constructs G H (some (.many0 u .empty)) x' p st 0 (.ok v st (blen t'))) ↔
    Means R0 V0 (fun t _ => g t) E0 x [] v := by
  rw [← C83_tables_flat hG0 hV0 hp0 hf hfE h ht he x (hH x) st v]
  have := C90_without_blanks u A hG hV hp hR hVL hE hx hb [] [] (hH _) (hH _) st v
  simpa using this

end

/-! ## Nested lists of numbers, written with spaces -/

namespace Nested

/-- The grammar of nested lists with spaces skipped: what is matched, and the values. -/
def spacedPegs : Nat → Peg Char := fun i =>
  if i = 0 then .alt (.seq Skip.blanks digits) (.seq Skip.blanks (.seq (.seq Skip.blanks (.lit ['[']))
    (.seq (.seq Skip.blanks (.seq (.list (.seq Skip.blanks (.nt 0)) (.seq Skip.blanks (.lit [','])) 0) (.opt Skip.blanks)))
      (.seq Skip.blanks (.lit [']']))))) else .fail

def spacedValues : Nat → VPeg Char (List Char) := fun i =>
  if i = 0 then .alt (.text Skip.blanks digits) (.after (.seq Skip.blanks (.lit ['['])) (.before
    (.list (.nt 0) (.seq Skip.blanks (.lit [','])) true 0 .eps (.opt Skip.blanks)) (.seq Skip.blanks (.lit [']']))))
  else .fail

theorem rules_spacedPegs : RulesAsPegIn Skip.blanks rules spacedPegs := by
  intro i
  by_cases h : i = 0
  · subst h
    exact .inl ⟨_, rfl, .or (.leaf trivial (.many1 _)) (.enclose (.leaf trivial (.lit _))
      (.sep 0 (.cell 0) (.leaf trivial (.lit _))) (.leaf trivial (.lit _)))⟩
  · exact .inr ⟨by simp [rules, h], by simp [spacedPegs, h]⟩

theorem rules_spacedValues : RulesAsVal (.skipping Skip.blanks) rules spacedValues := by
  have lit : ∀ c : Char, (Reading.skipping Skip.blanks : Reading Char (List Char)).delim (.lit [c])
      (.seq Skip.blanks (.lit [c])) := fun c => ⟨_, .leaf trivial (.lit _), rfl⟩
  intro i
  by_cases h : i = 0
  · subst h
    exact .inl ⟨_, rfl, .or (.leaf trivial (by simp) ⟨trivial, .many1 _⟩)
      (.enclose (lit _) (.sep true 0 (.cell 0) (.cell rfl (.guarded trivial)) (lit _)) (lit _))⟩
  · exact .inr ⟨by simp [rules, h], by simp [spacedValues, h]⟩

/-- Two digits of a number do not stand apart. -/
def Apart (c d : Char) : Prop := ¬ (c.isDigit = true ∧ d.isDigit = true)

theorem lit_token (c : Char) (hc : c ≠ ' ') : Peg.Token (Neu.isMatch (.item ' ')) Apart (.lit [c]) := by
  refine ⟨fun a ha => ?_, trivial, fun _ d _ _ => rfl⟩
  simp only [Neu.isMatch, decide_eq_true_eq] at ha
  subst ha
  simpa using fun h => hc h.symm

theorem digits_token : Peg.Token (Neu.isMatch (.item ' ')) Apart digits := by
  have h : ∀ c d, Apart c d → Char.isDigit c = true → Char.isDigit d = false := by
    intro c d h hc
    cases hd : d.isDigit with
    | false => rfl
    | true => exact absurd ⟨hc, hd⟩ h
  have hb : ∀ c, Neu.isMatch (.item ' ') c = true → Char.isDigit c = false := by
    intro c hc
    simp only [Neu.isMatch, decide_eq_true_eq] at hc
    subst hc
    decide
  refine ⟨hb, ⟨hb, h⟩, ?_⟩
  intro c d h1 h2
  simpa [Peg.begins, Peg.first, digits] using h c d h1 h2

theorem spaced_laid (i : Nat) :
    Laid Skip.blanks (Peg.Lexeme (Neu.isMatch (.item ' ')) Apart) true (spacedPegs i) := by
  have tok : ∀ c : Char, c ≠ ' ' → Laid Skip.blanks (Peg.Lexeme (Neu.isMatch (.item ' ')) Apart) false
    (.seq Skip.blanks (.lit [c])) := fun c hc => .skip (.token (.inl (lit_token c hc)))
  by_cases h : i = 0
  · subst h
    exact .behind (.alt (.skip (.token (.inl digits_token))) (.skip (.behind (.seq (tok '[' (by decide))
      (.seq (.skip (.behind (.seq (Space.laid_list (.skip (.nt 0)) (tok ',' (by decide)) 0) (Space.laid_opt .skipped))))
        (tok ']' (by decide)))))))
  · rw [spacedPegs, if_neg h]
    exact .behind (.not .eps)

theorem spaced_vlaid (i : Nat) : VLaid Skip.blanks (Peg.Lexeme (Neu.isMatch (.item ' ')) Apart) (spacedValues i) := by
  have tok : ∀ c : Char, c ≠ ' ' → Laid Skip.blanks (Peg.Lexeme (Neu.isMatch (.item ' ')) Apart) false
    (.seq Skip.blanks (.lit [c])) := fun c hc => .skip (.token (.inl (lit_token c hc)))
  by_cases h : i = 0
  · subst h
    exact .alt (.text (.inl digits_token)) (.after (tok '[' (by decide)) (.before
      (.list (.nt 0) (tok ',' (by decide)) .eps (Space.laid_opt .skipped)) (tok ']' (by decide))))
  · rw [spacedValues, if_neg h]
    exact .fail

end Nested

/-- **C90 (nested lists).** The theorems applied: of a text with spaces written anywhere but
between two digits, the grammar of nested lists of numbers, in a context that skips spaces, builds
exactly the value of the nested list without the spaces. -/
theorem C90_nested {x x' : List Char} (hx : Respaced (Neu.isMatch (.item ' ')) Nested.Apart x x')
    (hb : ∀ c ∈ x, c ≠ ' ') (v : Val (List Char)) :
    (∃ t' y', x' = t' ++ y' ∧ (∀ c ∈ y', ' ' = c) ∧
      Constructs (σ := Unit) Nested.rules extractH (some (.many0 (.item ' ') .empty)) x' (.cell 0) () 0
        (.ok v () (blen t'))) ↔ Nested.Entry x v := by
  have := C90_tables_flat (H := extractH) (g := fun t => t) (.item ' ') Nested.Apart Nested.rules_spacedPegs
    Nested.rules_spacedValues (.cell 0) Nested.spaced_laid Nested.spaced_vlaid (.nt 0) Nested.rules_pegs
    Nested.rules_values (.cell 0) Nested.flat trivial Nested.tables trivial (fun h hh => .inl hh) hx
    (fun c hc => by simpa [Neu.isMatch, eq_comm] using hb c hc) (fun d => C63_handles_extract d) () v
  simp only [Neu.isMatch, decide_eq_true_eq] at this
  rw [this]
  exact ⟨fun h => (Nested.means_item (fun _ _ => rfl) h).1 (.inl rfl), fun h => Nested.item_means (fun _ _ => rfl) h []⟩

/-- Non-vacuity: a nested list, and the same with spaces; what is built is its value. -/
example : Respaced (Neu.isMatch (.item ' ')) Nested.Apart ['[', '1', '2', ',', '[', ']', ']']
      [' ', '[', '1', '2', ' ', ',', ' ', ' ', '[', ']', ' ', ']', ' '] ∧
    Nested.Entry ['[', '1', '2', ',', '[', ']', ']'] (.cons (.base ['1', '2']) (.cons .nil .nil)) ∧
    Constructs (σ := Unit) Nested.rules extractH (some (.many0 (.item ' ') .empty))
      [' ', '[', '1', '2', ' ', ',', ' ', ' ', '[', ']', ' ', ']', ' '] (.cell 0) () 0
      (.ok (.cons (.base ['1', '2']) (.cons .nil .nil)) () 12) := by
  refine ⟨?_, .list (.more (t := ['1', '2']) (ts := ['[', ']']) (.num (by simp) (by simp))
    (.last (.list (ts := []) .none))), 20, by decide +kernel⟩
  have b1 : ∀ c ∈ ([] : List Char), Neu.isMatch (.item ' ') c = true := by simp
  have b2 : ∀ c ∈ [' '], Neu.isMatch (.item ' ') c = true := by decide
  have b3 : ∀ c ∈ [' ', ' '], Neu.isMatch (.item ' ') c = true := by decide
  have s : ∀ c : Char, c ∈ ['[', ']', ',', '1', '2'] → Neu.isMatch (.item ' ') c = false := by decide
  refine .next (u := []) (u' := [' ']) b1 b2 (s '[' (by simp)) (.inr (.inl rfl)) ?_
  refine .next (u := []) (u' := []) b1 b1 (s '1' (by simp)) (.inl (by simp)) ?_
  refine .next (u := []) (u' := []) b1 b1 (s '2' (by simp)) (.inl (by simp)) ?_
  refine .next (u := []) (u' := [' ']) b1 b2 (s ',' (by simp)) (.inr (.inr ⟨_, rfl, fun h => by simp at h⟩)) ?_
  refine .next (u := []) (u' := [' ', ' ']) b1 b3 (s '[' (by simp)) (.inr (.inr ⟨_, rfl, fun h => by simp at h⟩)) ?_
  refine .next (u := []) (u' := []) b1 b1 (s ']' (by simp)) (.inl (by simp)) ?_
  refine .next (u := []) (u' := [' ']) b1 b2 (s ']' (by simp)) (.inr (.inr ⟨_, rfl, fun h => by simp at h⟩)) ?_
  exact .tail b1 b2

/-- **C90 (blanks inside a number).** Between two digits a space does matter: `1 2` is not the
number `12`, though without the space it is. -/
theorem C90_inside_counterexample :
    Nested.Entry ['1', '2'] (.base ['1', '2']) ∧
    ¬ ∃ o, Constructs (σ := Unit) Nested.rules extractH (some (.many0 (.item ' ') .empty)) ['1', ' ', '2'] (.cell 0) () 0
      (.ok (.base ['1', '2']) () o) := by
  refine ⟨.num (by simp) (by simp), ?_⟩
  rintro ⟨o, h⟩
  have h' : Constructs (σ := Unit) Nested.rules extractH (some (.many0 (.item ' ') .empty)) ['1', ' ', '2'] (.cell 0) () 0
    (.ok (.base ['1']) () 1) := ⟨10, by decide +kernel⟩
  have := h.unique h'
  simp at this

end Neure
