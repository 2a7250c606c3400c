import Verif.Coarse
import Verif.Demo
import Verif.Find
/-!
# C95: a grammar sees only the differences it asks for

`f` sends every item to a representative that takes as many bytes: a letter to its lower case, a digit
to `'0'`, every character that is neither bracket to `'x'`.  If no unit, literal or closure of a grammar
tells an item from its representative (`Coarse`), a text and the text of the representatives are the
same to it: matching, searching and building give the same.
-/

namespace Neure

open Demo

set_option linter.unusedSectionVars false

variable {ι β σ : Type} [Item ι] {G : Rules ι β} {f : ι → ι} {pol : Option (Pat ι β)}

/-! ## Matching -/

/-- **C95.** The outcome on the representatives is the outcome on the text: the same matches, errors and
positions, at every offset. -/
theorem C95_image (hf : ∀ x, Item.size (f x) = Item.size x) (hpol : ∀ q, pol = some q → All G (Coarse f) q)
    {p : Pat ι β} (hp : All G (Coarse f) p) (d : List ι) (o : Nat) (r : Res Span) :
    Runs G pol (d.map f) p o r ↔ Runs G pol d p o r := by
  simp only [Runs, tryMat_image hf _ pol hpol d p hp]

/-- **C95 (two texts).** Two texts that differ only in items the grammar does not tell apart give the
same outcome. -/
theorem C95_same_class (hf : ∀ x, Item.size (f x) = Item.size x) (hpol : ∀ q, pol = some q → All G (Coarse f) q)
    {p : Pat ι β} (hp : All G (Coarse f) p) {d d' : List ι} (h : d.map f = d'.map f) (o : Nat) (r : Res Span) :
    Runs G pol d p o r ↔ Runs G pol d' p o r := by
  rw [← C95_image hf hpol hp d, ← C95_image hf hpol hp d', h]

/-! ## Building values -/

/-- **C95 (building).** With a handler that does not tell them apart either, the values are the same. -/
theorem C95_construct {H : Handler ι β σ} (hf : ∀ x, Item.size (f x) = Item.size x)
    (hpol : ∀ q, pol = some q → All G (Coarse f) q) (hH : ∀ d o s st, H (d.map f) o s st = H d o s st) {p : Pat ι β}
    (hp : All G (Coarse f) p) (d : List ι) (st : σ) (o : Nat) (r : CRes σ (Val β)) :
    Constructs G H pol (d.map f) p st o r ↔ Constructs G H pol d p st o r := by
  simp only [Constructs, con_image hf _ pol hpol d (fun o s st => hH d o s st) p hp]

/-- The handlers of `ctx.ctor_span` and of `Extract<()>` look at no text. -/
theorem C95_span_handler (d : List ι) (o : Nat) (s : Span) (st : σ) :
    spanH (d.map f) o s st = spanH d o s st ∧ unitH (d.map f) o s st = unitH d o s st := ⟨rfl, rfl⟩

/-- **C95 (spans of two texts).** `ctx.ctor_span` gives the same tree of spans for two texts that
differ only in items the grammar does not tell apart. -/
theorem C95_construct_same_class {G : Rules ι Span} {pol : Option (Pat ι Span)} (hf : ∀ x, Item.size (f x) = Item.size x)
    (hpol : ∀ q, pol = some q → All G (Coarse f) q) {p : Pat ι Span} (hp : All G (Coarse f) p) {d d' : List ι}
    (h : d.map f = d'.map f) (st : σ) (o : Nat) (r : CRes σ (Val Span)) :
    Constructs G spanH pol d p st o r ↔ Constructs G spanH pol d' p st o r := by
  rw [← C95_construct (H := spanH) hf hpol (fun _ _ _ _ => rfl) hp d,
    ← C95_construct (H := spanH) hf hpol (fun _ _ _ _ => rfl) hp d', h]

/-! ## Searching -/

/-- **C95 (searching).** `find`, `find_all` and `match_seq` find the same spans. -/
theorem C95_find (hf : ∀ x, Item.size (f x) = Item.size x) (hpol : ∀ q, pol = some q → All G (Coarse f) q)
    {p : Pat ι β} (hp : All G (Coarse f) p) (d : List ι) (o : Nat) :
    (∀ r, Finds G pol (d.map f) p .span o r ↔ Finds G pol d p .span o r) ∧
    (∀ r, FindsAll G pol (d.map f) p .span o r ↔ FindsAll G pol d p .span o r) ∧
    (∀ r, SeqNext G pol (d.map f) p .span o r ↔ SeqNext G pol d p .span o r) := by
  have hm : ∀ n, tryMat G n pol (d.map f) p = tryMat G n pol d p :=
    fun n => funext fun o => tryMat_image hf n pol hpol d p hp o
  have hi : (Extract.span (ι := ι)).invoke (d.map f) = Extract.span.invoke d := rfl
  have hF : ∀ n, find G pol (d.map f) p .span n = find G pol d p .span n :=
    fun n => funext fun o => by simp only [find, hm, hi, blen_image hf]
  refine ⟨fun r => ?_, fun r => ?_, fun r => ?_⟩
  · simp only [Finds, hF]
  · simp only [FindsAll, findAll, hF]
  · simp only [SeqNext, seqNext, hm, hi, blen_image hf]

/-! ### The texts of the matches -/

/-- The result with its value replaced. -/
def Res.onVal {α γ : Type} (g : α → γ) : Res α → Res γ
  | .ok a o => .ok (g a) o
  | .err e o => .err e o
  | .panic => .panic

theorem findLoop_onVal {α γ : Type} (g : α → γ) {mt : Nat → Option (Res Span)} {len : Nat} {func : Processor}
    {h' : Span → Out γ} {h : Span → Out α} (hh : ∀ s, h' s = match h s with
      | .ok a => .ok (g a)
      | .err e => .err e
      | .panic => .panic) (fuel o : Nat) :
    findLoop mt len func h' fuel o = (findLoop mt len func h fuel o).map (Res.onVal (Option.map g)) := by
  induction fuel generalizing o with
  | zero => rfl
  | succ n ih =>
    have hb : ∀ ret o, findBody func h' (findLoop mt len func h' n) ret o
        = (findBody func h (findLoop mt len func h n) ret o).map (Res.onVal (Option.map g)) := by
      intro ret o
      simp only [findBody]
      rcases func ret o with ⟨_ | s, o2⟩
      · exact ih o2
      · simp only [hh s]
        cases h s with
        | ok a => rfl
        | err e => exact ih o2
        | panic => rfl
    simp only [findLoop]
    by_cases hl : o < len
    · rw [if_pos hl, if_pos hl]
      rcases mt o with _ | _ | _ | _
      · rfl
      · exact hb _ _
      · exact hb _ _
      · rfl
    · rw [if_neg hl, if_neg hl]; rfl

theorem drain_onVal {α γ : Type} (g : α → γ) {next' : Nat → Option (Res (Option γ))}
    {next : Nat → Option (Res (Option α))} (hn : ∀ o, next' o = (next o).map (Res.onVal (Option.map g))) (k o : Nat) :
    drain next' k o = (drain next k o).map (Res.onVal (List.map g)) := by
  induction k generalizing o with
  | zero => rfl
  | succ k ih =>
    simp only [drain, hn o]
    rcases next o with _ | ⟨_ | a, o'⟩ | _ | _
    · rfl
    · rfl
    · simp only [Option.map_some, Res.onVal, caseR, ih]
      rcases drain next k o' with _ | _ | _ | _ <;> rfl
    · rfl
    · rfl

/-- **C95 (the texts found).** What `find_all` returns on the representatives are the representatives of
what it returns on the text, in the same order, and it stops at the same position. -/
theorem C95_find_all_texts (hf : ∀ x, Item.size (f x) = Item.size x) (hpol : ∀ q, pol = some q → All G (Coarse f) q)
    {p : Pat ι β} (hp : All G (Coarse f) p) (d : List ι) (o : Nat) {l : List (List ι)} {e : Nat}
    (h : FindsAll G pol d p .slice o (.ok l e)) :
    FindsAll G pol (d.map f) p .slice o (.ok (l.map (List.map f)) e) := by
  obtain ⟨n, hn⟩ := h
  refine ⟨n, ?_⟩
  have hm : tryMat G n pol (d.map f) p = tryMat G n pol d p :=
    funext fun o => tryMat_image hf n pol hpol d p hp o
  have hF : ∀ o, find G pol (d.map f) p .slice n o = (find G pol d p .slice n o).map (Res.onVal (Option.map (List.map f))) := by
    intro o
    simp only [find, hm, blen_image hf]
    refine findLoop_onVal (List.map f) (fun s => ?_) n o
    simp only [Extract.invoke, origSub_image hf]
    cases origSub d s.beg s.len <;> rfl
  unfold findAll at hn ⊢
  rw [drain_onVal (List.map f) hF, hn]; rfl

/-! ## What is asked is needed -/

/-- A literal tells an item from its representative: the outcomes differ. -/
theorem C95_literal_counterexample :
    let f : Char → Char := fun c => if c = 'A' then 'a' else c
    (∀ x, Item.size (f x) = Item.size x) ∧
    Runs (β := Nat) G0 none ['A'] (.lit ['A']) 0 (.ok ⟨0, 1⟩ 1) ∧
    Runs (β := Nat) G0 none (['A'].map f) (.lit ['A']) 0 (.err .literal 0) := by
  refine ⟨fun x => ?_, ⟨1, by decide⟩, ⟨1, by decide⟩⟩
  by_cases h : x = 'A'
  · subst h; decide
  · simp [h]

/-- Representatives of another length move everything behind them. -/
theorem C95_length_counterexample :
    let f : Char → Char := fun c => if c = 'é' then 'e' else c
    let q : Pat Char Nat := .thn (.once (.pred fun c => c = 'é' || c = 'e') .empty) (.lit ['x'])
    All G0 (Coarse f) q ∧ Runs (β := Nat) G0 none ['é', 'x'] q 0 (.ok ⟨0, 3⟩ 3) ∧
    Runs (β := Nat) G0 none (['é', 'x'].map f) q 0 (.ok ⟨0, 2⟩ 2) := by
  refine ⟨All.intro (by exact trivial) ?_, ⟨3, by decide⟩, ⟨3, by decide⟩⟩
  rintro q (rfl | rfl)
  · refine All.intro ⟨fun x => ?_, trivial⟩ fun _ h => absurd h id
    by_cases h : x = 'é'
    · subst h; decide
    · simp [h]
  · refine all_lit ?_
    intro c hc x
    have : c = 'x' := by simpa using hc
    subst this
    by_cases h : x = 'é'
    · subst h; decide
    · simp [h]

/-! ## The hypotheses can be met -/

/-- A bracket stands for itself, any other one-byte character for `'x'`. -/
def unbracket (c : Char) : Char := if c.utf8Size = 1 ∧ c ≠ '(' ∧ c ≠ ')' then 'x' else c

theorem unbracket_size (c : Char) : Item.size (unbracket c) = Item.size c := by
  show (unbracket c).utf8Size = c.utf8Size
  unfold unbracket
  split
  · next h => rw [h.1]; decide
  · rfl

theorem unbracket_eq {b : Char} (hb : b = '(' ∨ b = ')') (x : Char) : unbracket x = b ↔ x = b := by
  unfold unbracket
  split
  · next h =>
    constructor
    · intro e; rcases hb with rfl | rfl <;> exact absurd e (by decide)
    · rintro rfl; rcases hb with rfl | rfl
      · exact absurd rfl h.2.1
      · exact absurd rfl h.2.2
  · exact Iff.rfl

theorem parens_coarse : All GP (Coarse unbracket) parens :=
  all_parens (by exact trivial) (fun c hc => unbracket_eq (.inl (by simpa using hc))) (by exact trivial)
    (fun c hc => unbracket_eq (.inr (by simpa using hc))) (by exact trivial)

-- brackets are all that nested parentheses see: the recursive grammar, any text
example (d : List Char) (o : Nat) (r : Res Span) :
    Runs GP none (d.map unbracket) parens o r ↔ Runs GP none d parens o r :=
  C95_image unbracket_size (fun _ h => by cases h) parens_coarse d o r
example (d : List Char) {l : List (List Char)} {e : Nat} (h : FindsAll GP none d parens .slice 0 (.ok l e)) :
    FindsAll GP none (d.map unbracket) parens .slice 0 (.ok (l.map (List.map unbracket)) e) :=
  C95_find_all_texts unbracket_size (fun _ h => by cases h) parens_coarse d 0 h
example : ['a', '(', ')', 'b'].map unbracket = ['1', '(', ')', ';'].map unbracket := by decide
example : FindsAll GP none ['a', '(', ')', 'b', '(', '(', ')', ')'] parens .slice 0
    (.ok [['(', ')'], ['(', '(', ')', ')']] 8) := ⟨20, by decide⟩

/-- Every digit stands for `'0'`. -/
def zeroed (c : Char) : Char := if c.isDigit then '0' else c

theorem zeroed_size (c : Char) : Item.size (zeroed c) = Item.size c := by
  show (zeroed c).utf8Size = c.utf8Size
  unfold zeroed
  split
  · next h =>
    simp only [Char.isDigit, Bool.and_eq_true, decide_eq_true_eq, ge_iff_le] at h
    have h2 : c.val.toNat ≤ 57 := UInt32.le_iff_toNat_le.mp h.2
    have : c.utf8Size = 1 := by
      rw [Char.utf8Size]
      rw [if_pos]
      exact UInt32.le_iff_toNat_le.mpr (Nat.le_trans h2 (by decide))
    rw [this]; decide
  · rfl

/-- A date: `regex!` `\d+-\d+`. -/
def dayMonth : Pat Char Span :=
  .thn (.many1 (.pred Char.isDigit) .empty) (.thn (.lit ['-']) (.many1 (.pred Char.isDigit) .empty))

theorem dayMonth_coarse : All G0 (Coarse zeroed) dayMonth := by
  have hd : Neu.Coarse zeroed (.pred Char.isDigit) := by
    intro x
    show Char.isDigit (zeroed x) = Char.isDigit x
    unfold zeroed
    split
    · next h => rw [h]; decide
    · rfl
  have hn : All (β := Span) G0 (Coarse zeroed) (.many1 (.pred Char.isDigit) .empty) :=
    All.intro ⟨hd, trivial⟩ fun _ h => absurd h id
  refine All.intro (by exact trivial) ?_
  rintro q (rfl | rfl)
  · exact hn
  · refine All.intro (by exact trivial) ?_
    rintro q (rfl | rfl)
    · refine all_lit ?_
      intro c hc x
      have : c = '-' := by simpa using hc
      subst this
      unfold zeroed
      split
      · next h =>
        constructor
        · intro e; exact absurd e (by decide)
        · rintro rfl; exact absurd h (by decide)
      · exact Iff.rfl
    · exact hn

-- which digits stand in a date does not change where its parts are
example (r : CRes Unit (Val Span)) :
    Constructs G0 spanH none ['1', '6', '-', '1', '1'] dayMonth () 0 r ↔
      Constructs G0 spanH none ['0', '9', '-', '3', '7'] dayMonth () 0 r :=
  C95_construct_same_class zeroed_size (fun _ h => by cases h) dayMonth_coarse (by decide) () 0 r
example : Constructs G0 spanH none ['1', '6', '-', '1', '1'] dayMonth () 0
    (.ok (.pair (.base ⟨0, 2⟩) (.pair (.base ⟨2, 1⟩) (.base ⟨3, 2⟩))) () 5) := ⟨8, by rfl⟩

end Neure
