import Verif.RewriteLemmas
import Verif.PropsAlgebra
import Verif.PropsTerm
/-!
# C84: equal patterns may replace each other anywhere

If two patterns behave alike, each may be used in place of the other inside every
combinator, in conditions, in what closures build, and in the rules of recursive patterns.
Error values steer nothing: the same holds for patterns that are alike but for the
errors they report.
-/

namespace Neure

set_option linter.unusedSectionVars false
set_option linter.unusedSimpArgs false

open Demo

variable {ι β σ : Type} [Item ι] {G G' : Rules ι β} {H : Handler ι β σ} {pol : Option (Pat ι β)}
  {E : Error → Error → Prop} {p p' q : Pat ι β} {d : List ι} {o : Nat} {st : σ}

/-! ## Being alike -/

theorem sameRes_eq {α : Type} {a b : Res α} : SameRes Eq a b ↔ a = b := by
  constructor
  · intro h; cases h with
    | ok => rfl
    | err _ h => rw [h]
    | panic => rfl
  · rintro rfl; exact SameRes.refl (fun _ => rfl) a

theorem sameCRes_eq {α : Type} {a b : CRes σ α} : SameCRes Eq a b ↔ a = b := by
  constructor
  · intro h; cases h with
    | ok => rfl
    | err _ _ h => rw [h]
    | panic => rfl
  · rintro rfl; exact SameCRes.refl (fun _ => rfl) a

/-- **C84 (exactly alike).** With errors compared exactly, alike means: the same results. -/
theorem C84_exact : ActAlike Eq G pol p p' ↔ ∀ d o r, Parses G pol d p o r ↔ Parses G pol d p' o r := by
  simp only [ActAlike, sameRes_eq]
  constructor
  · intro h d o r
    exact ⟨fun hr => let ⟨_, h1, h2⟩ := (h d o).1 r hr; h2 ▸ h1,
      fun hr => let ⟨_, h1, h2⟩ := (h d o).2 r hr; h2 ▸ h1⟩
  · intro h d o
    exact ⟨fun r hr => ⟨r, (h d o r).1 hr, rfl⟩, fun r hr => ⟨r, (h d o r).2 hr, rfl⟩⟩

/-- The same for constructing. -/
theorem C84_exact_build : BuildAlike Eq G H pol p p' ↔
    ∀ d st o r, Constructs G H pol d p st o r ↔ Constructs G H pol d p' st o r := by
  simp only [BuildAlike, sameCRes_eq]
  constructor
  · intro h d st o r
    exact ⟨fun hr => let ⟨_, h1, h2⟩ := (h d st o).1 r hr; h2 ▸ h1,
      fun hr => let ⟨_, h1, h2⟩ := (h d st o).2 r hr; h2 ▸ h1⟩
  · intro h d st o
    exact ⟨fun r hr => ⟨r, (h d st o r).1 hr, rfl⟩, fun r hr => ⟨r, (h d st o r).2 hr, rfl⟩⟩

/-- **C84 (the laws of C45).** On a plain context, exactly alike is the equivalence for which
the algebraic laws are proved. -/
theorem C84_equiv : ActAlike Eq G none p p' ↔ Equiv G p p' := C84_exact

theorem C84_equiv_but_error : ActAlike AnyError G none p p' ↔ EquivButError G p p' := by
  constructor
  · intro h d o
    refine ⟨fun s o' => ⟨fun hr => ?_, fun hr => ?_⟩, fun o' => ⟨fun ⟨e, hr⟩ => ?_, fun ⟨e, hr⟩ => ?_⟩,
      ⟨fun hr => ?_, fun hr => ?_⟩⟩
    · obtain ⟨_, h1, h2⟩ := (h d o).1 _ hr; cases h2; exact h1
    · obtain ⟨_, h1, h2⟩ := (h d o).2 _ hr; cases h2; exact h1
    · obtain ⟨_, h1, h2⟩ := (h d o).1 _ hr; cases h2; exact ⟨_, h1⟩
    · obtain ⟨_, h1, h2⟩ := (h d o).2 _ hr; cases h2; exact ⟨_, h1⟩
    · obtain ⟨_, h1, h2⟩ := (h d o).1 _ hr; cases h2; exact h1
    · obtain ⟨_, h1, h2⟩ := (h d o).2 _ hr; cases h2; exact h1
  · intro h d o
    obtain ⟨h1, h2, h3⟩ := h d o
    constructor
    · intro r hr
      cases r with
      | ok s o' => exact ⟨_, (h1 s o').1 hr, .ok _ _⟩
      | err e o' => obtain ⟨e', he⟩ := (h2 o').1 ⟨e, hr⟩; exact ⟨_, he, .err _ trivial⟩
      | panic => exact ⟨_, h3.1 hr, .panic⟩
    · intro r hr
      cases r with
      | ok s o' => exact ⟨_, (h1 s o').2 hr, .ok _ _⟩
      | err e o' => obtain ⟨e', he⟩ := (h2 o').2 ⟨e, hr⟩; exact ⟨_, he, .err _ trivial⟩
      | panic => exact ⟨_, h3.2 hr, .panic⟩

theorem SameRes.flip {α : Type} {a b : Res α} (h : SameRes E a b) (hE : Equivalence E) : SameRes E b a := by
  cases h with
  | ok => exact .ok _ _
  | err _ h => exact .err _ (hE.symm h)
  | panic => exact .panic

theorem SameCRes.flip {α : Type} {a b : CRes σ α} (h : SameCRes E a b) (hE : Equivalence E) : SameCRes E b a := by
  cases h with
  | ok => exact .ok _ _ _
  | err _ _ h => exact .err _ _ (hE.symm h)
  | panic => exact .panic

/-- **C84 (an equivalence).** A pattern is alike to itself; the two sides may be exchanged;
steps may be chained. -/
theorem C84_equivalence (hE : Equivalence E) : Equivalence (ActAlike E G pol) where
  refl p := fun d o => ⟨fun r hr => ⟨r, hr, .refl hE.refl r⟩, fun r hr => ⟨r, hr, .refl hE.refl r⟩⟩
  symm h := fun d o =>
    ⟨fun r hr => let ⟨r', h1, h2⟩ := (h d o).2 r hr; ⟨r', h1, h2.flip hE⟩,
     fun r hr => let ⟨r', h1, h2⟩ := (h d o).1 r hr; ⟨r', h1, h2.flip hE⟩⟩
  trans h h' := fun d o =>
    ⟨fun r hr =>
      let ⟨_, h1, h2⟩ := (h d o).1 r hr
      let ⟨_, h3, h4⟩ := (h' d o).1 _ h1
      ⟨_, h3, SameRes.trans (E := E) (fun _ _ _ a b => hE.trans a b) h2 h4⟩,
     fun r hr =>
      let ⟨_, h1, h2⟩ := (h' d o).2 r hr
      let ⟨_, h3, h4⟩ := (h d o).2 _ h1
      ⟨_, h3, SameRes.trans (E := E) (fun _ _ _ a b => hE.trans a b) h4 h2⟩⟩

theorem C84_equivalence_build (hE : Equivalence E) : Equivalence (WhollyAlike E G H pol) where
  refl p := ⟨(C84_equivalence hE).refl p, fun d st o =>
    ⟨fun r hr => ⟨r, hr, .refl hE.refl r⟩, fun r hr => ⟨r, hr, .refl hE.refl r⟩⟩⟩
  symm h := ⟨(C84_equivalence hE).symm h.1, fun d st o =>
    ⟨fun r hr => let ⟨r', h1, h2⟩ := (h.2 d st o).2 r hr; ⟨r', h1, h2.flip hE⟩,
     fun r hr => let ⟨r', h1, h2⟩ := (h.2 d st o).1 r hr; ⟨r', h1, h2.flip hE⟩⟩⟩
  trans h h' := ⟨(C84_equivalence hE).trans h.1 h'.1, fun d st o =>
    ⟨fun r hr =>
      let ⟨_, h1, h2⟩ := (h.2 d st o).1 r hr
      let ⟨_, h3, h4⟩ := (h'.2 d st o).1 _ h1
      ⟨_, h3, SameCRes.trans (E := E) (fun _ _ _ a b => hE.trans a b) h2 h4⟩,
     fun r hr =>
      let ⟨_, h1, h2⟩ := (h'.2 d st o).2 r hr
      let ⟨_, h3, h4⟩ := (h.2 d st o).2 _ h1
      ⟨_, h3, SameCRes.trans (E := E) (fun _ _ _ a b => hE.trans a b) h4 h2⟩⟩⟩

/-! ## Inside a pattern -/

/-- **C84 (anywhere).** Replacing the components of a pattern, under any combinator, by
patterns that are alike gives a pattern that is alike. -/
theorem C84_anywhere (hE : Equivalence E) (h : SameShape G G (ActAlike E G pol) p p') : ActAlike E G pol p p' := by
  have go {E : Error → Error → Prop} (hE : Equivalence E) {p p' : Pat ι β}
      (h : SameShape G G (ActAlike E G pol) p p') (d : List ι) (o : Nat) :
      LeE E (parseL G pol d p o) (parseL G pol d p' o) :=
    parseL_shape hE.refl (fun d p p' o h => ((actAlike_iff.mp h) d o).1) h d o
  rw [actAlike_iff]
  refine fun d o => ⟨go hE h d o, ?_⟩
  have hE' : (fun a b => E b a) = E := by
    funext a b; exact propext ⟨hE.symm, hE.symm⟩
  rw [hE']
  exact go hE (sameShape_mono (fun _ _ h => (C84_equivalence hE).symm h) (sameShape_symm h)) d o

/-- **C84 (anywhere, constructing).** The same when values are constructed. -/
theorem C84_anywhere_build (hE : Equivalence E) (h : SameShape G G (WhollyAlike E G H pol) p p') :
    WhollyAlike E G H pol p p' := by
  refine ⟨C84_anywhere hE (sameShape_mono (fun _ _ h => h.1) h), ?_⟩
  have go {p p' : Pat ι β} (h : SameShape G G (WhollyAlike E G H pol) p p') (d : List ι) (st : σ) (o : Nat) :
      LeCE E (conL G H pol d p st o) (conL G H pol d p' st o) :=
    conL_shape hE.refl (fun d p p' o h => ((actAlike_iff.mp h.1) d o).1)
      (fun d p p' st o h => ((buildAlike_iff.mp h.2) d st o).1) h d st o
  rw [buildAlike_iff]
  refine fun d st o => ⟨go h d st o, ?_⟩
  have hE' : (fun a b => E b a) = E := by
    funext a b; exact propext ⟨hE.symm, hE.symm⟩
  rw [hE']
  exact go (sameShape_mono (fun _ _ h => (C84_equivalence_build hE).symm h) (sameShape_symm h)) d st o

/-- **C84 (through the context).** What is alike is alike for `ctx.try_mat`, whatever is
skipped before. -/
theorem C84_try_mat (hE : Equivalence E) (h : ActAlike E G pol p p') (d : List ι) (o : Nat) :
    (∀ r, Runs G pol d p o r → ∃ r', Runs G pol d p' o r' ∧ SameRes E r r') ∧
    (∀ r', Runs G pol d p' o r' → ∃ r, Runs G pol d p o r ∧ SameRes E r r') := by
  have go {p p' : Pat ι β} (h : ActAlike E G pol p p') : LeE E (matL G pol d p o) (matL G pol d p' o) :=
    matL_leE hE.refl (fun o => ((actAlike_iff.mp h) d o).1) o
  simp only [runs_iff]
  refine ⟨fun r hr => go h r hr, fun r hr => ?_⟩
  obtain ⟨r', h1, h2⟩ := go ((C84_equivalence hE).symm h) r hr
  exact ⟨r', h1, h2.flip hE⟩

/-! ## In the rules -/

/-- **C84 (rules, no new results).** If every recursive pattern is replaced by one that is
alike, nothing returns a new result. -/
theorem C84_rules_sound (hE : Equivalence E) (h0 : RuleByRule (ActAlike E G none) G G')
    (hpol : RuleByRule (ActAlike E G pol) G G') (r : Res Span) (h : Parses G' pol d p o r) :
    ∃ r', Parses G pol d p o r' ∧ SameRes E r r' := by
  have weaken (pol) (h : RuleByRule (ActAlike E G pol) G G') :
      RuleByRule (fun q q' => ∀ d o, LeE E (parseL G pol d q' o) (parseL G pol d q o)) G G' := by
    intro i
    rcases h i with h | ⟨q, q', h1, h2, h3⟩
    · exact .inl h
    · exact .inr ⟨q, q', h1, h2, fun d o => ((actAlike_iff.mp ((C84_equivalence hE).symm h3)) d o).1⟩
  simp only [parses_iff] at h ⊢
  exact parseL_rules hE.refl (fun _ _ _ => hE.trans) (weaken _ h0) (weaken _ hpol) d p o r h

/-- The same when values are constructed. -/
theorem C84_rules_sound_build (hE : Equivalence E) (h0 : RuleByRule (ActAlike E G none) G G')
    (hpol : RuleByRule (WhollyAlike E G H pol) G G') (r : CRes σ (Val β)) (h : Constructs G' H pol d p st o r) :
    ∃ r', Constructs G H pol d p st o r' ∧ SameCRes E r r' := by
  have weaken (pol) (h : RuleByRule (ActAlike E G pol) G G') :
      RuleByRule (fun q q' => ∀ d o, LeE E (parseL G pol d q' o) (parseL G pol d q o)) G G' := by
    intro i
    rcases h i with h | ⟨q, q', h1, h2, h3⟩
    · exact .inl h
    · exact .inr ⟨q, q', h1, h2, fun d o => ((actAlike_iff.mp ((C84_equivalence hE).symm h3)) d o).1⟩
  have hpol' : RuleByRule (ActAlike E G pol) G G' := by
    intro i
    rcases hpol i with h | ⟨q, q', h1, h2, h3⟩
    · exact .inl h
    · exact .inr ⟨q, q', h1, h2, h3.1⟩
  have hcon : RuleByRule (fun q q' => ∀ d st o, LeCE E (conL G H pol d q' st o) (conL G H pol d q st o)) G G' := by
    intro i
    rcases hpol i with h | ⟨q, q', h1, h2, h3⟩
    · exact .inl h
    · exact .inr ⟨q, q', h1, h2,
        fun d st o => ((buildAlike_iff.mp ((C84_equivalence_build hE).symm h3).2) d st o).1⟩
  simp only [constructs_iff] at h ⊢
  exact conL_rules hE.refl (fun _ _ _ => hE.trans) (weaken _ h0) (weaken _ hpol') hcon d p st o r h

/-- **C84 (rules, where both return).** If the new rules return at all, they return what the
old rules return. -/
theorem C84_rules_returning (hE : Equivalence E) (h0 : RuleByRule (ActAlike E G none) G G')
    (hpol : RuleByRule (ActAlike E G pol) G G') (hr : ∃ r, Parses G' pol d p o r) (r : Res Span)
    (h : Parses G pol d p o r) : ∃ r', Parses G' pol d p o r' ∧ SameRes E r r' := by
  obtain ⟨r', hr'⟩ := hr
  obtain ⟨r'', h1, h2⟩ := C84_rules_sound hE h0 hpol r' hr'
  rw [parses_iff] at h h1
  rw [h] at h1
  cases h1
  exact ⟨r', hr', h2.flip hE⟩

/-- **C84 (rules).** If the patterns are alike under the old rules and under the new ones,
everything returns the same under both. -/
theorem C84_rules (hE : Equivalence E) (h0 : RuleByRule (ActAlike E G none) G G')
    (hpol : RuleByRule (ActAlike E G pol) G G') (h0' : RuleByRule (ActAlike E G' none) G G')
    (hpol' : RuleByRule (ActAlike E G' pol) G G') :
    (∀ r, Parses G pol d p o r → ∃ r', Parses G' pol d p o r' ∧ SameRes E r r') ∧
    (∀ r', Parses G' pol d p o r' → ∃ r, Parses G pol d p o r ∧ SameRes E r r') := by
  have turn (pol) (h : RuleByRule (ActAlike E G' pol) G G') : RuleByRule (ActAlike E G' pol) G' G := by
    intro i
    rcases h i with ⟨h1, h2⟩ | ⟨q, q', h1, h2, h3⟩
    · exact .inl ⟨h2, h1⟩
    · exact .inr ⟨q', q, h2, h1, (C84_equivalence hE).symm h3⟩
  refine ⟨fun r hr => C84_rules_sound hE (turn _ h0') (turn _ hpol') r hr, fun r hr => ?_⟩
  obtain ⟨r', h1, h2⟩ := C84_rules_sound hE h0 hpol r hr
  exact ⟨r', h1, h2.flip hE⟩

/-- **C84 (rules, constructing).** -/
theorem C84_rules_build (hE : Equivalence E) (h0 : RuleByRule (ActAlike E G none) G G')
    (hpol : RuleByRule (WhollyAlike E G H pol) G G') (h0' : RuleByRule (ActAlike E G' none) G G')
    (hpol' : RuleByRule (WhollyAlike E G' H pol) G G') :
    (∀ r, Constructs G H pol d p st o r → ∃ r', Constructs G' H pol d p st o r' ∧ SameCRes E r r') ∧
    (∀ r', Constructs G' H pol d p st o r' → ∃ r, Constructs G H pol d p st o r ∧ SameCRes E r r') := by
  have t0 : RuleByRule (ActAlike E G' none) G' G := by
    intro i
    rcases h0' i with ⟨h1, h2⟩ | ⟨q, q', h1, h2, h3⟩
    · exact .inl ⟨h2, h1⟩
    · exact .inr ⟨q', q, h2, h1, (C84_equivalence hE).symm h3⟩
  have tp : RuleByRule (WhollyAlike E G' H pol) G' G := by
    intro i
    rcases hpol' i with ⟨h1, h2⟩ | ⟨q, q', h1, h2, h3⟩
    · exact .inl ⟨h2, h1⟩
    · exact .inr ⟨q', q, h2, h1, (C84_equivalence_build hE).symm h3⟩
  refine ⟨fun r hr => C84_rules_sound_build hE t0 tp r hr, fun r hr => ?_⟩
  obtain ⟨r', h1, h2⟩ := C84_rules_sound_build hE h0 hpol r hr
  exact ⟨r', h1, h2.flip hE⟩

/-! ## Laws for constructing -/

theorem wholly_of_eq (h : ∀ d o, parseL G pol d p o = parseL G pol d p' o)
    (h' : ∀ d st o, conL G H pol d p st o = conL G H pol d p' st o) : WhollyAlike Eq G H pol p p' := by
  refine ⟨C84_exact.mpr fun d o r => ?_, C84_exact_build.mpr fun d st o r => ?_⟩
  · rw [parses_iff, parses_iff, h]
  · rw [constructs_iff, constructs_iff, h']

/-- **C84 (alternatives are associative).** Also for the values. -/
theorem C84_or_assoc (a b c : Pat ι β) :
    WhollyAlike Eq G H none (.or (.or a b) c) (.or a (.or b c)) := by
  refine wholly_of_eq (fun d o => ?_) (fun d st o => ?_)
  · exact equiv_iff.mp (C45_or_assoc a b c) d o
  · simp only [conL_or]
    rcases conL G H none d a st o with _ | (⟨v, st1, o1⟩ | ⟨e, st1, o1⟩ | _) <;> simp only [caseC]
    rcases conL G H none d b st1 o with _ | (⟨v, st2, o2⟩ | ⟨e, st2, o2⟩ | _) <;> simp only [caseC]
    rcases conL G H none d c st2 o with _ | (_ | _ | _) <;> simp only

/-- Two mappers, one after the other. -/
def mapThen (f g : Val β → Out (Val β)) (v : Val β) : Out (Val β) :=
  match f v with
  | .ok w => g w
  | .err e => .err e
  | .panic => .panic

/-- **C84 (mappers compose).** Mapping twice is mapping once by the composition. -/
theorem C84_map_map (a : Pat ι β) (f g : Val β → Out (Val β)) :
    WhollyAlike Eq G H none (.map (.map a f) g) (.map a (mapThen f g)) := by
  refine wholly_of_eq (fun d o => ?_) (fun d st o => ?_)
  · simp only [parseL_map, matL_none]
  · simp only [conL_map]
    rcases conL G H none d a st o with _ | (⟨v, st1, o1⟩ | ⟨e, st1, o1⟩ | _) <;> simp only [caseC]
    unfold mapThen
    rcases f v with _ | _ | _ <;> simp only [caseT]

/-! ## Cases -/

/-- Balanced parentheses, the rule written with `then`. -/
def parensThen : Pat Char Nat := .thn (.lit ['(']) (.thn (.rep (.cell 0) ⟨.unb, .unb⟩) (.lit [')']))

/-- Cell 0 holds `parensThen`. -/
def GPThen : Rules Char Nat := fun i => if i = 0 then some parensThen else none

/-- The rule of a recursive pattern rewritten by a law of C45: both grammars give the same
results, for every input. -/
example (d : List Char) (o : Nat) (r : Res Span) :
    Parses GP none d (.cell 0) o r ↔ Parses GPThen none d (.cell 0) o r := by
  have law (G : Rules Char Nat) (h : G 0 = some parens ∨ G 0 = some parensThen) (hn : ∀ i, i ≠ 0 → G i = none) :
      ActAlike Eq G none parens parensThen := by
    have ht : ∀ q, (q = parens ∨ q = parensThen ∨ q = .lit ['('] ∨ q = .lit [')'] ∨
        q = .rep (.cell 0) ⟨.unb, .unb⟩ ∨ q = .cell 0 ∨
        q = .thn (.rep (.cell 0) ⟨.unb, .unb⟩) (.lit [')'])) → All G Tidy q := by
      intro q hq
      refine All.coind (fun q => q = parens ∨ q = parensThen ∨ q = .lit ['('] ∨ q = .lit [')'] ∨
        q = .rep (.cell 0) ⟨.unb, .unb⟩ ∨ q = .cell 0 ∨
        q = .thn (.rep (.cell 0) ⟨.unb, .unb⟩) (.lit [')'])) hq ?_ ?_
      · rintro a (rfl | rfl | rfl | rfl | rfl | rfl | rfl) <;> trivial
      · rintro a b (rfl | rfl | rfl | rfl | rfl | rfl | rfl) hb
        · rcases hb with rfl | rfl | rfl <;> simp
        · rcases hb with rfl | rfl <;> simp
        · exact hb.elim
        · exact hb.elim
        · cases hb; simp
        · rcases h with h | h <;> (simp only [Child, h, Option.some.injEq] at hb; subst hb; simp)
        · rcases hb with rfl | rfl <;> simp
    exact C84_equiv.mpr ((C45_delimiters_are_then _ _ _).2.2 (ht _ (by simp)) (ht _ (by simp)) (ht _ (by simp))).1
  have rule (G : Rules Char Nat) (h : G 0 = some parens ∨ G 0 = some parensThen) (hn : ∀ i, i ≠ 0 → G i = none) :
      RuleByRule (ActAlike Eq G none) GP GPThen := by
    intro i
    by_cases hi : i = 0
    · subst hi; exact .inr ⟨_, _, rfl, rfl, law G h hn⟩
    · exact .inl ⟨by simp [GP, hi], by simp [GPThen, hi]⟩
  have h1 := rule GP (.inl rfl) (fun i hi => by simp [GP, hi])
  have h2 := rule GPThen (.inr rfl) (fun i hi => by simp [GPThen, hi])
  have := C84_rules (p := .cell 0) (d := d) (o := o) ⟨fun _ => rfl, Eq.symm, Eq.trans⟩ h1 h1 h2 h2
  simp only [sameRes_eq] at this
  exact ⟨fun h => let ⟨_, a, b⟩ := this.1 r h; b ▸ a, fun h => let ⟨_, a, b⟩ := this.2 r h; b ▸ a⟩

/-- Both accept `(()())`. -/
example : Parses GP none ['(', '(', ')', '(', ')', ')'] (.cell 0) 0 (.ok ⟨0, 6⟩ 6) ∧
    Parses GPThen none ['(', '(', ')', '(', ')', ')'] (.cell 0) 0 (.ok ⟨0, 6⟩ 6) :=
  ⟨⟨20, by decide⟩, ⟨20, by decide⟩⟩

/-- Cell 0 holds itself. -/
def GLoop : Rules Char Nat := fun i => if i = 0 then some (.cell 0) else none

/-- **C84 (rules may stop returning).** A rule is alike to its own handle, yet with the handle
in place of the rule nothing returns any more: for the rules one needs that the new ones
return, or that the law holds under them too. -/
theorem C84_rules_counterexample :
    RuleByRule (ActAlike Eq GP none) GP GLoop ∧
    Parses GP none ['(', ')'] (.cell 0) 0 (.ok ⟨0, 2⟩ 2) ∧
    ∀ d o r, ¬ Parses GLoop none d (.cell 0) o r := by
  refine ⟨fun i => ?_, ⟨9, by decide⟩, fun d o r ⟨n, hn⟩ => ?_⟩
  · by_cases hi : i = 0
    · subst hi
      refine .inr ⟨parens, .cell 0, rfl, rfl, C84_exact.mpr fun d o r => ?_⟩
      rw [parses_iff, parses_iff, parseL_cell]
      rfl
    · exact .inl ⟨by simp [GP, hi], by simp [GLoop, hi]⟩
  · induction n with
    | zero => cases hn
    | succ n ih =>
      have : parse GLoop (n + 1) none d (.cell 0) o = parse GLoop n none d (.cell 0) o := by
        simp only [parse, step, GLoop, if_pos]
      rw [this] at hn
      exact ih hn

/-- Errors steer nothing: `or(fail)` changes the error only, so under a repetition, a look
ahead and in a condition it changes nothing but errors. -/
example (a : Pat ι β) (ha : All G Restores a) (u : Neu ι) :
    ActAlike AnyError G none (.thn (.rep a ⟨.unb, .unb⟩) (.many1 u (.regex (.assert a false))))
      (.thn (.rep (.or a .fail) ⟨.unb, .unb⟩) (.many1 u (.regex (.assert (.or a .fail) false)))) := by
  have hE : Equivalence AnyError := ⟨fun _ => trivial, fun _ => trivial, fun _ _ => trivial⟩
  have h : ActAlike AnyError G none a (.or a .fail) :=
    (C84_equivalence hE).symm (C84_equiv_but_error.mpr (C45_or_fail a ha).2)
  exact C84_anywhere hE (.thn (C84_anywhere hE (.rep _ h))
    (C84_anywhere hE (.many1 _ (.regex (C84_anywhere hE (.assert _ h))))))

/-- Constructing: two mappers on the elements of a list are one mapper. -/
example (a s : Pat ι β) (f g : Val β → Out (Val β)) (k : Bool) (m : Nat) :
    WhollyAlike Eq G H none (.sep (.map (.map a f) g) s k m) (.sep (.map a (mapThen f g)) s k m) :=
  have hE : Equivalence (Eq (α := Error)) := ⟨fun _ => rfl, Eq.symm, Eq.trans⟩
  C84_anywhere_build hE (.sep k m (C84_map_map a f g) ((C84_equivalence_build hE).refl s))

end Neure
