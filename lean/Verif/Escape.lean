import Verif.PropsTerm
/-!
# `escape_strval!`, `src/macro.rs:286-301`
-/

namespace Neure

set_option linter.unusedSectionVars false

variable {ι β : Type} [Item ι]

/-- `$prefix.then(escape)`, `src/macro.rs:289`: a `NeureThen`. -/
def escapePair (pfx : ι) (esc : Neu ι) : Pat ι β := .thenU (.item pfx) esc .empty

/-- One round of the loop, `src/macro.rs:290-296`: either a run of non-quote
characters at which no escape pair starts, or an escape pair. -/
def escapeRound (quote pfx : ι) (esc : Neu ι) : Pat ι β :=
  .or (.many1 (.not (.item quote)) (.regex (.assert (escapePair pfx esc) false))) (escapePair pfx esc)

/-- `escape_strval!(quote, prefix, escape)`, `src/macro.rs:286-301`; the
`str_val` of `examples/json.rs:29-41` is the same pattern.  `escape` is any unit
(an array of characters is a unit). -/
def escapeStrval (quote pfx : ι) (esc : Neu ι) : Pat ι β :=
  .pat (.rep (escapeRound quote pfx esc) ⟨.incl 0, .unb⟩)

/-! ## What it should recognise -/

/-- The body of a string: reading from the left, an escape pair (the prefix
followed by an escapable character) is taken as a whole, any other character is
taken unless it is the quote. -/
def strBody (quote pfx : ι) (esc : ι → Bool) : List ι → List ι
  | [] => []
  | [x] => if x = quote then [] else [x]
  | x :: y :: l =>
    if x = pfx ∧ esc y = true then x :: y :: strBody quote pfx esc l
    else if x = quote then [] else x :: strBody quote pfx esc (y :: l)

/-- `l` begins with an escape pair. -/
def StartsPair (pfx : ι) (esc : ι → Bool) (l : List ι) : Prop :=
  ∃ y t, l = pfx :: y :: t ∧ esc y = true

/-- Put the prefix before every character that needs it. -/
def escapeText (pfx : ι) (needs : ι → Bool) : List ι → List ι
  | [] => []
  | x :: l => if needs x then pfx :: x :: escapeText pfx needs l else x :: escapeText pfx needs l

/-! ## Lemmas -/

section
variable {quote pfx : ι} {esc : ι → Bool}

theorem strBody_pair (y : ι) (l : List ι) (h : esc y = true) :
    strBody quote pfx esc (pfx :: y :: l) = pfx :: y :: strBody quote pfx esc l := by
  simp [strBody, h]

theorem strBody_plain (x : ι) (l : List ι) (hx : x ≠ quote) (h : ¬ StartsPair pfx esc (x :: l)) :
    strBody quote pfx esc (x :: l) = x :: strBody quote pfx esc l := by
  cases l with
  | nil => simp [strBody, hx]
  | cons y l =>
    have : ¬ (x = pfx ∧ esc y = true) := by
      rintro ⟨rfl, h'⟩; exact h ⟨y, l, rfl, h'⟩
    simp [strBody, this, hx]

theorem strBody_stop (l : List ι) (h : ¬ StartsPair pfx esc (quote :: l)) :
    strBody quote pfx esc (quote :: l) = [] := by
  cases l with
  | nil => simp [strBody]
  | cons y l =>
    have : ¬ (quote = pfx ∧ esc y = true) := by
      rintro ⟨rfl, h'⟩; exact h ⟨y, l, rfl, h'⟩
    simp [strBody, this]

/-- The run of characters taken one by one. -/
noncomputable def plainRun (quote pfx : ι) (esc : ι → Bool) : List ι → List ι × List ι
  | [] => ([], [])
  | x :: l => by
    classical
    exact if x ≠ quote ∧ ¬ StartsPair pfx esc (x :: l) then
      (x :: (plainRun quote pfx esc l).1, (plainRun quote pfx esc l).2) else ([], x :: l)

theorem plainRun_append (l : List ι) :
    (plainRun quote pfx esc l).1 ++ (plainRun quote pfx esc l).2 = l := by
  induction l with
  | nil => rfl
  | cons x l ih => unfold plainRun; split <;> simp [ih]

theorem plainRun_stop (l : List ι) (x : ι) (t : List ι) (h : (plainRun quote pfx esc l).2 = x :: t) :
    x = quote ∨ StartsPair pfx esc (x :: t) := by
  induction l with
  | nil => simp [plainRun] at h
  | cons y l ih =>
    unfold plainRun at h
    split at h
    · exact ih h
    · next hn =>
      cases h
      by_cases hx : x = quote
      · exact .inl hx
      · exact .inr (Classical.byContradiction fun hc => hn ⟨hx, hc⟩)

theorem plainRun_plain (l a : List ι) (x : ι) (b : List ι)
    (h : (plainRun quote pfx esc l).1 = a ++ x :: b) :
    x ≠ quote ∧ ¬ StartsPair pfx esc (x :: (b ++ (plainRun quote pfx esc l).2)) := by
  induction l generalizing a with
  | nil => simp [plainRun] at h
  | cons y l ih =>
    unfold plainRun at h ⊢
    split at h
    · next hy =>
      rw [if_pos hy]
      cases a with
      | nil =>
        simp only [List.nil_append, List.cons.injEq] at h
        obtain ⟨rfl, rfl⟩ := h
        rw [plainRun_append]
        exact hy
      | cons z a =>
        simp only [List.cons_append, List.cons.injEq] at h
        exact ih a h.2
    · simp at h

theorem strBody_run (l : List ι) :
    strBody quote pfx esc l = (plainRun quote pfx esc l).1 ++ strBody quote pfx esc (plainRun quote pfx esc l).2 := by
  induction l with
  | nil => rfl
  | cons x l ih =>
    unfold plainRun
    split
    · next h => rw [strBody_plain x l h.1 h.2, ih]; rfl
    · rfl

end

end Neure
