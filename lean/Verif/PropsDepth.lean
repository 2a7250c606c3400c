import Verif.Depth
import Verif.PropsTerm
/-!
# C77: how deeply calls nest

The crate is a recursive-descent parser: every `try_parse` and every `construct`
runs on the call stack of the caller, and nothing limits how deeply they nest.
What a user relies on is that long texts do not need deep stacks: only nesting
does.
-/

namespace Neure

set_option linter.unusedSectionVars false
set_option linter.unusedSimpArgs false

open Demo Depth

variable {ι β σ : Type} [Item ι] {G : Rules ι β} {H : Handler ι β σ} {pol : Option (Pat ι β)}
  {d : List ι}

/-! ## What the bounded evaluators say -/

/-- **C77 (a bounded stack changes no answer).** A match that finishes within `k`
nested calls finishes with the same result on any deeper stack and on an unbounded
one; and every match that finishes does so within some number of nested calls. -/
theorem C77_bounded_stack (p : Pat ι β) (o : Nat) (r : Res Span) :
    (∀ k k', k ≤ k' → RunsIn G k pol d p o r → RunsIn G k' pol d p o r) ∧
    (Runs G pol d p o r ↔ ∃ k, RunsIn G k pol d p o r) := by
  refine ⟨fun k k' hk h => ?_, fun h => ?_, fun ⟨k, h⟩ => ?_⟩
  · rw [runsIn_iff] at h ⊢
    exact matWith_le (parseLAt_mono hk) pol d p o _ h
  · obtain ⟨n, hn⟩ := h
    refine ⟨n, n, ?_⟩
    exact matWith_le (parse_le_parseAt (Nat.le_refl n)) pol d p o _ hn
  · rw [runsIn_iff] at h
    exact runs_iff.mpr (matWith_le (parseLAt_le G k) pol d p o _ h)

/-- **C77 (the same for constructing).** -/
theorem C77_bounded_stack_building (p : Pat ι β) (st : σ) (o : Nat) (r : CRes σ (Val β)) :
    (∀ k k', k ≤ k' → ConstructsIn G H k pol d p st o r → ConstructsIn G H k' pol d p st o r) ∧
    (Constructs G H pol d p st o r ↔ ∃ k, ConstructsIn G H k pol d p st o r) := by
  refine ⟨fun k k' hk h => ?_, fun ⟨n, h⟩ => ?_, fun ⟨k, h⟩ => ?_⟩
  · rw [constructsIn_iff] at h ⊢
    exact conLAt_mono hk pol d p st o _ h
  · exact ⟨n + 1, n + 1, con_le_conAt (Nat.le_refl _) p st o _ h⟩
  · rw [constructsIn_iff] at h
    exact constructs_iff.mpr (conLAt_le _ _ _ _ _ _ _ _ _ h)

/-! ## Without recursion: the text does not matter -/

/-- **C77 (no recursion, no growth).** A pattern at most `k` levels high, under a skip
pattern at most `e` levels high, is matched with at most `k + e` nested calls on
every text from every offset: loops and separators do not nest. -/
theorem C77_flat {k e : Nat} {p : Pat ι β} (h : Below G k p) (he : ∀ w, pol = some w → Below G e w)
    (d : List ι) (o : Nat) (r : Res Span) :
    Runs G pol d p o r ↔ RunsIn G (k + e) pol d p o r := by
  refine ⟨fun hr => ?_, fun hr => (C77_bounded_stack p o r).2.mpr ⟨_, hr⟩⟩
  rw [runs_iff] at hr
  exact runsIn_iff.mpr (matL_below h he d o _ hr)

/-- **C77 (the same for constructing).** -/
theorem C77_flat_building {k e : Nat} {p : Pat ι β} (h : Below G k p)
    (he : ∀ w, pol = some w → Below G e w) (d : List ι) (st : σ) (o : Nat) (r : CRes σ (Val β)) :
    Constructs G H pol d p st o r ↔ ConstructsIn G H (k + 1 + e) pol d p st o r := by
  refine ⟨fun hr => ?_, fun hr => (C77_bounded_stack_building p st o r).2.mpr ⟨_, hr⟩⟩
  rw [constructs_iff] at hr
  exact constructsIn_iff.mpr (conL_below h he st o _ hr)

/-- A comma-separated list of words, of any length, with spaces skipped: three nested
calls. -/
example (d : List Char) (o : Nat) (r : Res Span)
    (h : Runs (G0 (β := Nat)) (some spaces) d (.sep (.many1 (.item 'a') .empty) (.lit [',']) true 1) o r) :
    RunsIn G0 3 (some spaces) d (.sep (.many1 (.item 'a') .empty) (.lit [',']) true 1) o r := by
  refine (C77_flat (k := 2) (e := 1) ?_ ?_ d o r).mp h
  · rintro q (rfl | rfl) q' hq <;> exact absurd hq id
  · rintro w hw q hq; cases hw; exact absurd hq id

/-! ## Recursion that makes progress: linear in the text -/

/-- **C77 (recursion, linear growth).** A grammar in which what a pattern may try
before consuming anything has a smaller rank (no left recursion), ranks staying
below `L`, is matched with at most `L` nested calls per remaining byte. -/
theorem C77_linear {L e : Nat} {rank : Pat ι β → Nat} (hpol : PolicyReturns G pol)
    (he : ∀ w, pol = some w → Below G e w) (p : Pat ι β) (h : Ranked G pol L rank p)
    (d : List ι) (o : Nat) (ho : o ≤ blen d) :
    ∃ r, Runs G pol d p o r ∧ RunsIn G ((blen d - o) * L + rank p + 1 + e) pol d p o r := by
  have := matLAt_ne (k := (blen d - o) * L + rank p + 1 + e) hpol he (by omega) ho (Nat.le_refl _)
    (fun o' ho' hR => parseLAt_ranked hpol he (blen d - o) p h d o' ho' hR)
  obtain ⟨r, hr⟩ := Option.ne_none_iff_exists'.mp this
  rw [← runsIn_iff] at hr
  exact ⟨r, (C77_bounded_stack p o r).2.mpr ⟨_, hr⟩, hr⟩

/-- **C77 (the same for constructing).** -/
theorem C77_linear_building {L e : Nat} {rank : Pat ι β → Nat} (p : Pat ι β)
    (h : CRanked G H pol d e L rank p) (st : σ) (o : Nat) (ho : o ≤ blen d) :
    ∃ r, Constructs G H pol d p st o r ∧
      ConstructsIn G H ((blen d - o) * L + rank p + 1 + e) pol d p st o r := by
  obtain ⟨r, hr⟩ := Option.ne_none_iff_exists'.mp
    (conLAt_ranked (blen d - o) p h st o ho (Nat.le_refl _))
  rw [← constructsIn_iff] at hr
  exact ⟨r, (C77_bounded_stack_building p st o r).2.mpr ⟨_, hr⟩, hr⟩

/-- What `parens` may try before it consumes: the literal; the cell: `parens`; the
loop: the cell. -/
def parensRank : Pat Char Nat → Nat
  | .enclose _ _ _ => 1
  | .cell _ => 2
  | .rep _ _ => 3
  | _ => 0

theorem parens_ranked (pol : Option (Pat Char Nat)) (hpol : SafePol GP pol) :
    Ranked GP pol 4 parensRank parens := by
  have safe : ∀ {q}, InParens q → All GP (Safe GP pol) q := fun hq =>
    all_parens_from trivial trivial trivial trivial trivial hq
  have e1 : Eats GP pol (.lit ['(']) :=
    C35_consuming_eats hpol _ (safe (.inr (.inl rfl))) (.lit (by simp))
  have e2 : Eats GP pol (.cell 0) := C35_consuming_eats hpol _
    (safe (.inr (.inr (.inr (.inr rfl))))) (.cell rfl (.enclose1 (.lit (by simp)) : Consuming GP parens))
  refine all_parens ⟨forward_of_safe hpol (safe (.inl rfl)), trivial, by decide, ?_⟩
    ⟨forward_of_safe hpol (safe (.inr (.inl rfl))), trivial, by decide, fun q h => absurd h id⟩
    ⟨forward_of_safe hpol (safe (.inr (.inr (.inl rfl)))), .inr e2, by decide, ?_⟩
    ⟨forward_of_safe hpol (safe (.inr (.inr (.inr (.inl rfl))))), trivial, by decide, fun q h => absurd h id⟩
    ⟨forward_of_safe hpol (safe (.inr (.inr (.inr (.inr rfl))))), trivial, by decide, ?_⟩
  · rintro q (rfl | ⟨h, _⟩)
    · decide
    · exact absurd e1 h
  · rintro q h; rw [show q = .cell 0 from h]; decide
  · rintro q h; have : some parens = some q := h; cases this; decide

/-- Nested parentheses: at most four nested calls per byte, and two. -/
example (d : List Char) : ∃ r, Runs GP none d parens 0 r ∧ RunsIn GP (blen d * 4 + 2) none d parens 0 r := by
  exact C77_linear (e := 0) (fun w h => by cases h) (fun w h => by cases h) _
    (parens_ranked none fun _ h => by cases h) d 0 (by omega)

/-! ## … and it does grow: the crate has no depth limit -/

theorem nest_needs (n : Nat) (t : List Char) (j : Nat) : ∀ i k, i + j = n →
    parseLAt GP k none (List.replicate n '(' ++ t) parens i ≠ none → 3 * j < k := by
  induction j with
  | zero =>
    intro i k _ h
    cases k with
    | zero => exact absurd rfl h
    | succ k => omega
  | succ j ih =>
    intro i k hi h
    have left : ∀ {α γ : Type} {x : Option (Res α)} {f : α → Nat → Option (Res γ)}
        {g : Error → Nat → Option (Res γ)}, caseR x f g ≠ none → x ≠ none := by
      intro α γ x f g h hx; subst hx; exact h rfl
    have text : List.replicate n '(' ++ t =
        List.replicate i '(' ++ ('(' :: (List.replicate j '(' ++ t)) := by
      rw [show n = i + (j + 1) by omega, ← List.replicate_append_replicate, List.append_assoc]; rfl
    have len : blen (List.replicate i '(') = i := by
      clear hi h text ih
      induction i with
      | zero => rfl
      | succ i ih => rw [List.replicate_succ]; show 1 + blen _ = _; omega
    have lit : ∀ k, parseLAt GP (k + 1) none (List.replicate n '(' ++ t) (.lit ['(']) i =
        some (.ok ⟨i, 1⟩ (i + 1)) := by
      intro k
      have h1 := ((C12_literal (G := GP) (pol := none) _ _ ['('] text _).mpr
        (.inl ⟨⟨_, rfl⟩, rfl⟩))
      rw [len, parses_iff] at h1
      exact parseLAt_mono (show 1 ≤ k + 1 by omega) _ _ _ _ _
        (parseL_below_none (k := 1) (fun q hq => absurd hq id) _ _ _ h1)
    cases k with
    | zero => exact absurd rfl h
    | succ k =>
      unfold parseLAt parens at h
      rw [stepL_enclose] at h
      cases k with
      | zero => exact absurd rfl h
      | succ k =>
        rw [show matWith (parseLAt GP (k + 1)) none (List.replicate n '(' ++ t) (.lit ['(']) i = _ from lit k] at h
        replace h : parseLAt GP (k + 1) none (List.replicate n '(' ++ t) (.rep (.cell 0) ⟨.unb, .unb⟩) (i + 1) ≠ none :=
          left (show caseR (parseLAt GP (k + 1) none _ (.rep (.cell 0) ⟨.unb, .unb⟩) (i + 1)) _ _ ≠ none from h)
        unfold parseLAt at h
        rw [stepL_rep, repL_eq] at h
        replace h := left (show caseR _ _ _ ≠ none from h)
        cases k with
        | zero => exact absurd rfl h
        | succ k =>
          replace h : parseLAt GP (k + 1) none (List.replicate n '(' ++ t) (.cell 0) (i + 1) ≠ none := h
          unfold parseLAt at h
          rw [stepL_cell] at h
          have := ih (i + 1) k (by omega) h
          omega

/-- **C77 (nesting costs stack).** On a text opening with `n` parentheses the nested
parentheses need more than `3 n` nested calls, whatever follows. -/
theorem C77_nesting (n : Nat) (t : List Char) (k : Nat) (r : Res Span)
    (h : RunsIn GP k none (List.replicate n '(' ++ t) parens 0 r) : 3 * n < k := by
  rw [runsIn_iff] at h
  exact nest_needs n t n 0 k (by omega) (by rw [show parseLAt GP k none _ _ _ = _ from h]; simp)

/-- **C77 (no limit, counterexample to "the stack suffices").** Whatever the size of the
stack, there is a text on which matching would return an ordinary result but needs
more: the crate does not bound the nesting, so a deeply nested text overflows the
stack, which no caller can catch. -/
theorem C77_no_limit_counterexample (k : Nat) : ∃ (d : List Char) (r : Res Span),
    Runs GP none d parens 0 r ∧ ¬ ∃ r', RunsIn GP k none d parens 0 r' := by
  obtain ⟨r, hr, _⟩ := C77_linear (e := 0) (fun w h => by cases h) (fun w h => by cases h) _
    (parens_ranked none fun _ h => by cases h) (List.replicate k '(') 0 (by omega)
  refine ⟨_, r, hr, fun ⟨r', h⟩ => ?_⟩
  have := C77_nesting k [] k r' (by simpa using h)
  omega

end Neure
