import Verif.Refactor
import Verif.Demo
/-!
# C66: naming and inlining patterns

Specification: `RefactorSpec.lean`.
-/

namespace Neure

set_option linter.unusedSectionVars false
set_option linter.unusedSimpArgs false

open Demo

variable {ι β σ : Type} [Item ι] {G G' : Rules ι β} {H : Handler ι β σ}
  {pol pol' : Option (Pat ι β)} {d : List ι} {p p' : Pat ι β} {o : Nat}

/-! ## What a refactoring preserves -/

/-- **C66 (matching).** Two grammars that differ only in what is named and what is
written in place give the same result of `ctx.try_mat`: the same span or error,
the same position afterwards, a panic or an endless run in the same cases; for any
input, start position and policy. -/
theorem C66_match (hp : Refactored G G' p p') (hpol : SamePolicy (Refactored G G') pol pol')
    (r : Res Span) : Runs G pol d p o r ↔ Runs G' pol' d p' o r := by
  have hR := refactored_refactoring (G := G) (G' := G')
  constructor
  · rintro ⟨n, hn⟩
    exact runs_iff.mpr (tryMat_refactor hR n hpol d p p' o hp r hn)
  · rintro ⟨n, hn⟩
    have hpol' : SamePolicy (fun a b => Refactored G G' b a) pol' pol := by
      cases hpol with
      | none => exact .none
      | some h => exact .some h
    exact runs_iff.mpr (tryMat_refactor (refactoring_symm hR) n hpol' d p' p o hp r hn)

/-- **C66 (constructing).** They also construct the same values, with the same
final state of the handler, for any handler. -/
theorem C66_construct (hp : Refactored G G' p p') (hpol : SamePolicy (Refactored G G') pol pol')
    (st : σ) (r : CRes σ (Val β)) :
    Constructs G H pol d p st o r ↔ Constructs G' H pol' d p' st o r := by
  have hR := refactored_refactoring (G := G) (G' := G')
  constructor
  · rintro ⟨n, hn⟩
    exact constructs_iff.mpr (con_refactor hR n hpol d p p' st o hp r hn)
  · rintro ⟨n, hn⟩
    have hpol' : SamePolicy (fun a b => Refactored G G' b a) pol' pol := by
      cases hpol with
      | none => exact .none
      | some h => exact .some h
    exact constructs_iff.mpr (con_refactor (refactoring_symm hR) n hpol' d p' p st o hp r hn)

/-! ## Which changes are refactorings -/

/-- **C66 (unchanged).** Nothing has to change. -/
theorem C66_refl (p : Pat ι β) : Refactored G G p p :=
  ⟨Eq, fun a b hab => by
    subst hab
    exact ⟨a, a, .refl _, .refl _, sameShape_self (fun _ _ => rfl) (fun _ _ => rfl)⟩, rfl⟩

/-- **C66 (naming).** If `q` may be replaced by `p'`, so may a handle that holds
`q`. -/
theorem C66_name {i : Nat} {q : Pat ι β} (hi : G i = some q) (h : Refactored G G' q p') :
    Refactored G G' (.cell i) p' := by
  obtain ⟨R, hR, hq⟩ := h
  refine ⟨fun a b => R a b ∨ (a = .cell i ∧ b = p'), ?_, .inr ⟨rfl, rfl⟩⟩
  rintro a b (hab | ⟨rfl, rfl⟩)
  · obtain ⟨x, y, h1, h2, h3⟩ := hR _ _ hab
    exact ⟨x, y, h1, h2, sameShape_mono (fun _ _ => .inl) h3⟩
  · obtain ⟨x, y, h1, h2, h3⟩ := hR _ _ hq
    exact ⟨x, y, .step hi h1, h2, sameShape_mono (fun _ _ => .inl) h3⟩

/-- **C66 (handle).** A handle may be replaced by what it holds. -/
theorem C66_handle {i : Nat} {q : Pat ι β} (hi : G i = some q) : Refactored G G (.cell i) q :=
  C66_name hi (C66_refl q)

/-- **C66 (anywhere).** Components may be refactored inside any combinator. -/
theorem C66_anywhere (h : SameShape G G' (Refactored G G') p p') : Refactored G G' p p' := by
  refine ⟨fun a b => SameShape G G' (Refactored G G') a b ∨ Refactored G G' a b, ?_, .inl h⟩
  rintro a b (hab | hab)
  · exact ⟨a, b, .refl _, .refl _, sameShape_mono (fun _ _ => .inr) hab⟩
  · obtain ⟨q, q', h1, h2, h3⟩ := refactored_refactoring a b hab
    exact ⟨q, q', h1, h2, sameShape_mono (fun _ _ => .inr) h3⟩

/-- **C66 (either direction).** A refactoring may be undone. -/
theorem C66_symm (h : Refactored G G' p p') : Refactored G' G p' p := by
  obtain ⟨R, hR, hp⟩ := h
  exact ⟨_, refactoring_symm hR, hp⟩

/-- **C66 (unused rules).** Handles that cannot be reached from the pattern may be
set to anything. -/
theorem C66_unused_rules (h : All G (fun q => ∀ i, q = .cell i → G i = G' i) p) :
    Refactored G G' p p := by
  refine ⟨fun a b => a = b ∧ All G (fun q => ∀ i, q = .cell i → G i = G' i) a, ?_, rfl, h⟩
  rintro a b ⟨rfl, ha⟩
  exact ⟨a, a, .refl _, .refl _, sameShape_self (fun q hq => ⟨rfl, ha.child hq⟩) ha.self⟩

/-- **C66 (in place).** Under fixed rules, one pattern may be used in place of the
other in any context, whatever its policy. -/
theorem C66_same_rules (hp : Refactored G G p p') (r : Res Span) :
    Runs G pol d p o r ↔ Runs G pol d p' o r :=
  C66_match hp (by cases pol <;> constructor; exact C66_refl _) r

/-! ## Cases -/

/-- The rule of balanced parentheses, unrolled `n` times in place. -/
def unrolled : Nat → Pat Char Nat
  | 0 => .cell 0
  | n + 1 => .enclose (.lit ['(']) (.rep (unrolled n) ⟨.unb, .unb⟩) (.lit [')'])

/-- **C66 (unrolling).** Unrolling a recursive rule any number of times changes
nothing. -/
theorem C66_unrolled (n : Nat) : Refactored GP GP (.cell 0) (unrolled n) := by
  induction n with
  | zero => exact C66_refl _
  | succ n ih =>
    exact C66_name (q := parens) (by simp [GP])
      (C66_anywhere (.enclose (C66_refl _) (C66_anywhere (.rep _ ih)) (C66_refl _)))

/-- So the unrolled pattern accepts exactly what the rule accepts. -/
example (n : Nat) (d : List Char) (o : Nat) (r : Res Span) :
    Runs GP none d (.cell 0) o r ↔ Runs GP none d (unrolled n) o r :=
  C66_same_rules (C66_unrolled n) r

/-- Non-vacuous: unrolled twice it matches `(()())`, although it is not the same
pattern. -/
example : Runs GP none ['(', '(', ')', '(', ')', ')'] (unrolled 2) 0 (.ok ⟨0, 6⟩ 6) ∧
    unrolled 2 ≠ .cell 0 :=
  ⟨(C66_same_rules (C66_unrolled 2) _).mp ⟨20, by decide +kernel⟩, by simp [unrolled]⟩

/-- The same rule under another handle, with rules for other handles added. -/
def GQ : Rules Char Nat := fun i =>
  if i = 7 then some (.enclose (.lit ['(']) (.rep (.cell 7) ⟨.unb, .unb⟩) (.lit [')']))
  else if i = 3 then some .fail else none

/-- Handles may be numbered differently. -/
theorem parens_renamed : Refactored GP GQ (.cell 0) (.cell 7) := by
  refine ⟨fun a b => (a = .cell 0 ∧ b = .cell 7) ∨
    (a = parens ∧ b = .enclose (.lit ['(']) (.rep (.cell 7) ⟨.unb, .unb⟩) (.lit [')'])) ∨
    (a = .rep (.cell 0) ⟨.unb, .unb⟩ ∧ b = .rep (.cell 7) ⟨.unb, .unb⟩) ∨
    (∃ l, a = .lit l ∧ b = .lit l), ?_, .inl ⟨rfl, rfl⟩⟩
  rintro a b (⟨rfl, rfl⟩ | ⟨rfl, rfl⟩ | ⟨rfl, rfl⟩ | ⟨l, rfl, rfl⟩)
  · exact ⟨_, _, .refl _, .refl _, .cell (q := parens) (by simp [GP]) (by simp [GQ])
      (.inr (.inl ⟨rfl, rfl⟩))⟩
  · exact ⟨_, _, .refl _, .refl _, .enclose (.inr (.inr (.inr ⟨_, rfl, rfl⟩)))
      (.inr (.inr (.inl ⟨rfl, rfl⟩))) (.inr (.inr (.inr ⟨_, rfl, rfl⟩)))⟩
  · exact ⟨_, _, .refl _, .refl _, .rep _ (.inl ⟨rfl, rfl⟩)⟩
  · exact ⟨_, _, .refl _, .refl _, .lit l⟩

example (d : List Char) (H : Handler Char Nat Unit) (o : Nat) (r : CRes Unit (Val Nat)) :
    Constructs GP H none d (.cell 0) () o r ↔ Constructs GQ H none d (.cell 7) () o r :=
  C66_construct parens_renamed .none () r

/-- Rules that `parens` does not mention may be set to anything. -/
example (x : Pat Char Nat) : Refactored GP (fun i => if i = 0 then some parens else some x)
    parens parens := by
  refine C66_unused_rules (all_parens ?_ ?_ ?_ ?_ ?_) <;> simp [GP, parens]

/-- Not everything is a refactoring: a handle that holds nothing is not one that
holds a pattern, and results differ. -/
example : ¬ Refactored GP GP (.cell 0) (.cell 1) := by
  intro h
  have h0 : Runs GP none ['(', ')'] (.cell 0) 0 (.ok ⟨0, 2⟩ 2) := ⟨20, by decide +kernel⟩
  have h1 : Runs GP none ['(', ')'] (.cell 1) 0 (.err .option 0) := ⟨20, by decide +kernel⟩
  exact absurd (((C66_match h .none _).mp h0).unique h1) (by simp)

end Neure
