import Verif.RecSync
import Verif.Eqs
import Verif.CtorDen
import Verif.Demo
import Verif.PropsComb
/-!
# C34: `rec_parser_sync`
-/

namespace Neure

set_option linter.unusedSectionVars false
set_option linter.unusedSimpArgs false

open Demo

variable {ι β σ : Type} [Item ι] {G : Rules ι β} {H : Handler ι β σ} {pol : Option (Pat ι β)}
  {d : List ι}

/-! ## Specification -/

/-- The same grammar, except that using handle `i` never returns (its content is
the handle itself). -/
def neverReturns (G : Rules ι β) (i : Nat) : Rules ι β := fun j => if j = i then some (.cell i) else G j

theorem parse_hang (i n : Nat) (pol : Option (Pat ι β)) (o : Nat) :
    parse (neverReturns G i) n pol d (.cell i) o = none := by
  induction n with
  | zero => rfl
  | succ n ih => simp only [parse, step, neverReturns, if_true]; exact ih

theorem con_hang (i n : Nat) (pol : Option (Pat ι β)) (st : σ) (o : Nat) :
    con (neverReturns G i) H n pol d (.cell i) st o = none := by
  induction n with
  | zero => rfl
  | succ n ih => simp only [con, conStep, neverReturns, if_true]; exact ih

/-- Using handle `i` in `neverReturns G i` indeed never returns. -/
theorem neverReturns_spec (i o : Nat) (st : σ) :
    (∀ r, ¬ Parses (neverReturns G i) pol d (.cell i) o r) ∧
    (∀ r, ¬ Constructs (neverReturns G i) H pol d (.cell i) st o r) :=
  ⟨fun _ ⟨n, h⟩ => by simp [parse_hang] at h, fun _ ⟨n, h⟩ => by simp [con_hang] at h⟩

/-! ## Lemmas -/

theorem step_rules (G G' : Rules ι β) (n : Nat) (mt : List ι → Pat ι β → Nat → Option (Res Span))
    (pr pr' : Pat ι β → Nat → Option (Res Span)) (p : Pat ι β) (o : Nat) (hp : ∀ i, p ≠ .cell i) :
    step G n mt pr d p o = step G' n mt pr' d p o := by
  cases p <;> first | rfl | exact absurd rfl (hp _)

theorem conStep_rules (G G' : Rules ι β) (n : Nat) (mt : Pat ι β → Nat → Option (Res Span))
    (leaf : Option (Res Span)) (cn : Pat ι β → σ → Nat → Option (CRes σ (Val β)))
    (p : Pat ι β) (st : σ) (o : Nat) (hp : ∀ i, p ≠ .cell i) :
    conStep G H n mt leaf cn d p st o = conStep G' H n mt leaf cn d p st o := by
  cases p <;> first | rfl | exact absurd rfl (hp _)

theorem parseSync_other (G : Rules ι β) (n : Nat) (held : List Nat) (pol : Option (Pat ι β))
    (p : Pat ι β) (o : Nat) (hp : ∀ i, p ≠ .cell i) :
    parseSync G (n + 1) held pol d p o =
      step G n (matWith (parseSync G n held) pol) (parseSync G n held pol d) d p o := by
  cases p <;> first | rfl | exact absurd rfl (hp _)

theorem conSync_other (G : Rules ι β) (n : Nat) (held : List Nat) (pol : Option (Pat ι β))
    (p : Pat ι β) (st : σ) (o : Nat) (hp : ∀ i, p ≠ .cell i) :
    conSync G H (n + 1) held pol d p st o =
      conStep G H n (tryMatSync G n held pol d) (tryMatSync G (n + 1) held pol d p o)
        (conSync G H n held pol d) d p st o := by
  cases p <;> first | rfl | exact absurd rfl (hp _)

theorem isCell (p : Pat ι β) : (∃ i, p = .cell i) ∨ ∀ i, p ≠ .cell i := by
  cases p <;> first | exact .inl ⟨_, rfl⟩ | exact .inr (fun i h => by cases h)

/-- With mutex handles nothing is ever computed that `rec_parser` would not compute. -/
theorem parseSync_le (G : Rules ι β) (n : Nat) (held : List Nat) (pol : Option (Pat ι β))
    (d : List ι) (p : Pat ι β) (o : Nat) : Le (parseSync G n held pol d p o) (parseL G pol d p o) := by
  induction n generalizing held pol d p o with
  | zero => exact Le.none _
  | succ n ih =>
    rcases isCell p with ⟨i, rfl⟩ | hp
    · rw [parseL_cell]
      simp only [parseSync]
      split
      · exact Le.none _
      · cases G i with
        | none => exact Le.refl _
        | some q => exact ih _ _ _ _ _
    · rw [parseSync_other G n held pol p o hp, parseL_eq]
      have h := (approx_step (G := G)
        (mt := fun k d p o => if k ≤ n then matWith (parseSync G n held) pol d p o else matL G pol d p o)
        (hm := fun d p o => approx_two n (matWith_le (fun pol d p o => ih held pol d p o) pol d p o))
        (pr := fun k p o => if k ≤ n then parseSync G n held pol d p o else parseL G pol d p o)
        (hp := fun p o => approx_two n (ih held pol d p o)) d p o).le n
      simp only [Nat.le_refl, if_true] at h
      exact h

theorem tryMatSync_le (G : Rules ι β) (n : Nat) (held : List Nat) (pol : Option (Pat ι β))
    (d : List ι) (p : Pat ι β) (o : Nat) : Le (tryMatSync G n held pol d p o) (matL G pol d p o) :=
  matWith_le (fun pol d p o => parseSync_le G n held pol d p o) pol d p o

theorem conSync_le (G : Rules ι β) (n : Nat) (held : List Nat) (p : Pat ι β) (st : σ) (o : Nat) :
    Le (conSync G H n held pol d p st o) (conL G H pol d p st o) := by
  induction n generalizing held p st o with
  | zero => exact Le.none _
  | succ n ih =>
    rcases isCell p with ⟨i, rfl⟩ | hp
    · rw [conL_cell]
      simp only [conSync]
      split
      · exact Le.none _
      · cases G i with
        | none => exact Le.refl _
        | some q => exact ih _ _ _ _
    · rw [conSync_other G n held pol p st o hp, conL_eq]
      have h := (approx_conStep (G := G) (H := H)
        (mt := fun k p o => if k ≤ n then tryMatSync G n held pol d p o else matL G pol d p o)
        (hm := fun p o => approx_two n (tryMatSync_le G n held pol d p o))
        (leaf := fun k => if k ≤ n then tryMatSync G (n + 1) held pol d p o else matL G pol d p o)
        (hl := approx_two n (tryMatSync_le G (n + 1) held pol d p o))
        (cn := fun k p st o => if k ≤ n then conSync G H n held pol d p st o else conL G H pol d p st o)
        (hc := fun p st o => approx_two n (ih held p st o)) d p st o).le n
      simp only [Nat.le_refl, if_true] at h
      exact h

/-- While the only handle is locked, it is as if using it never returned. -/
theorem parseSync_locked {i : Nat} (hone : ∀ j, j ≠ i → G j = none) (n : Nat)
    (pol : Option (Pat ι β)) (d : List ι) (p : Pat ι β) (o : Nat) :
    parseSync G n [i] pol d p o = parse (neverReturns G i) n pol d p o := by
  induction n generalizing pol d p o with
  | zero => rfl
  | succ n ih =>
    rcases isCell p with ⟨j, rfl⟩ | hp
    · by_cases hj : j = i
      · subst hj; rw [parse_hang]; simp [parseSync]
      · simp [parseSync, parse, step, neverReturns, hj, hone j hj]
    · rw [parseSync_other G n [i] pol p o hp]
      have e : parseSync G n [i] = parse (neverReturns G i) n := by funext pol d p o; exact ih pol d p o
      rw [e, step_rules G (neverReturns G i) n _ _ (parse (neverReturns G i) n pol d) p o hp]
      rfl

theorem conSync_locked {i : Nat} (hone : ∀ j, j ≠ i → G j = none) (n : Nat)
    (p : Pat ι β) (st : σ) (o : Nat) :
    conSync G H n [i] pol d p st o = con (neverReturns G i) H n pol d p st o := by
  induction n generalizing p st o with
  | zero => rfl
  | succ n ih =>
    rcases isCell p with ⟨j, rfl⟩ | hp
    · by_cases hj : j = i
      · subst hj; rw [con_hang]; simp [conSync]
      · simp [conSync, con, conStep, neverReturns, hj, hone j hj]
    · rw [conSync_other G n [i] pol p st o hp]
      have e : ∀ n, tryMatSync G n [i] pol d = tryMat (neverReturns G i) n pol d := by
        intro n
        funext p o
        have : parseSync G n [i] = parse (neverReturns G i) n := by
          funext pol d p o; exact parseSync_locked hone n pol d p o
        simp only [tryMatSync, tryMat, this]
      have e2 : conSync G H n [i] pol d = con (neverReturns G i) H n pol d := by
        funext p st o; exact ih p st o
      rw [e, e, e2, conStep_rules G (neverReturns G i) n _ _ _ p st o hp]
      rfl

/-! ## The property -/

/-- **C34 (never wrong).** Whatever a grammar with `rec_parser_sync` handles returns,
the same grammar with `rec_parser` handles returns: matching and constructing,
any number of handles. -/
theorem C34_sync_never_wrong (p : Pat ι β) (o : Nat) :
    (∀ r, ParsesSync G pol d p o r → Parses G pol d p o r) ∧
    (∀ st r, ConstructsSync G H pol d p st o r → Constructs G H pol d p st o r) :=
  ⟨fun _ ⟨n, h⟩ => parses_iff.mpr (parseSync_le G n [] pol d p o _ h),
   fun st _ ⟨n, h⟩ => constructs_iff.mpr (conSync_le G n [] p st o _ h)⟩

/-- **C34 (partial: agreement without re-entrance).** For a grammar with one handle `i`
with content `q`: parsing through the handle returns `r` exactly if parsing the
content returns `r` in the grammar where using the handle never returns — that
is, exactly if the parse does not use the handle again.

Full claim: `rec_parser_sync` behaves as `rec_parser`.  Missing: inputs on which
the parse re-enters the handle, where it is false (see
`C34_reentrance_blocks`, `C34_sync_recursion_counterexample`). -/
theorem C34_sync_agrees_without_reentrance_partial {i : Nat} {q : Pat ι β} (hq : G i = some q)
    (hone : ∀ j, j ≠ i → G j = none) (o : Nat) :
    (∀ r, ParsesSync G pol d (.cell i) o r ↔ Parses (neverReturns G i) pol d q o r) ∧
    (∀ st r, ConstructsSync G H pol d (.cell i) st o r ↔
      Constructs (neverReturns G i) H pol d q st o r) := by
  constructor
  · intro r
    constructor
    · rintro ⟨n, h⟩
      cases n with
      | zero => cases h
      | succ n =>
        simp only [parseSync, List.not_mem_nil, if_false, hq] at h
        exact ⟨n, by rw [← parseSync_locked hone]; exact h⟩
    · rintro ⟨n, h⟩
      refine ⟨n + 1, ?_⟩
      simp only [parseSync, List.not_mem_nil, if_false, hq]
      rw [parseSync_locked hone]; exact h
  · intro st r
    constructor
    · rintro ⟨n, h⟩
      cases n with
      | zero => cases h
      | succ n =>
        simp only [conSync, List.not_mem_nil, if_false, hq] at h
        exact ⟨n, by rw [← conSync_locked hone]; exact h⟩
    · rintro ⟨n, h⟩
      refine ⟨n + 1, ?_⟩
      simp only [conSync, List.not_mem_nil, if_false, hq]
      rw [conSync_locked hone]; exact h

/-- The grammar of the documentation of `rec_parser_sync` (one alternative):
`(self or letter)` enclosed in `[` and `]`. -/
def brackets : Pat Char Nat :=
  .enclose (.lit ['[']) (.or (.cell 0) (.once (.pred Char.isLower) .empty)) (.lit [']'])
/-- Its rule table. -/
def GB : Rules Char Nat := fun i => if i = 0 then some brackets else none

/-- The plain handle does parse nested brackets, … -/
example : Runs GB none ['[', '[', 'a', ']', ']'] (.cell 0) 0 (.ok ⟨0, 5⟩ 5) := ⟨20, by decide⟩

/-- … and an input that does not start with `[` does not re-enter. -/
example : ParsesSync GB none ['a'] (.cell 0) 0 (.err .literal 0) := ⟨5, by decide⟩

/-- The two agree on grammars whose handle is not used inside its content. -/
example : ParsesSync (fun i => if i = 0 then some (.lit ['a']) else none : Rules Char Nat) none ['a']
    (.cell 0) 0 (.ok ⟨0, 1⟩ 1) := ⟨5, by decide⟩

/-- **C34 (re-entrance blocks).** In a grammar with one handle: if the content uses the
handle — parsing the content would never return if the handle did not — then
parsing through the `rec_parser_sync` handle never returns, even where
`rec_parser` returns a result. -/
theorem C34_reentrance_blocks {i : Nat} {q : Pat ι β} (hq : G i = some q)
    (hone : ∀ j, j ≠ i → G j = none) (o : Nat) :
    ((∀ r, ¬ Parses (neverReturns G i) pol d q o r) → ∀ r, ¬ ParsesSync G pol d (.cell i) o r) ∧
    (∀ st, (∀ r, ¬ Constructs (neverReturns G i) H pol d q st o r) →
      ∀ r, ¬ ConstructsSync G H pol d (.cell i) st o r) := by
  obtain ⟨a, b⟩ := C34_sync_agrees_without_reentrance_partial (H := H) (pol := pol) (d := d) hq hone o
  exact ⟨fun h r hr => h r ((a r).mp hr), fun st h r hr => h r ((b st r).mp hr)⟩

theorem lit_bracket {G : Rules Char Nat} (rest : List Char) :
    matL G none ('[' :: rest) (.lit ['[']) 0 = some (.ok ⟨0, 1⟩ 1) := by
  rw [matL_none, ← parses_iff]
  exact (C12_literal (d := '[' :: rest) [] ('[' :: rest) ['['] rfl _).mpr (.inl ⟨⟨rest, rfl⟩, rfl⟩)

/-- **C34 (counterexample).** With the documentation's grammar, *every* input that
starts with `[` makes `rec_parser_sync` block forever, in both modes. -/
theorem C34_sync_recursion_counterexample (rest : List Char) :
    (∀ r, ¬ ParsesSync GB none ('[' :: rest) (.cell 0) 0 r) ∧
    (∀ (H : Handler Char Nat σ) st r, ¬ ConstructsSync GB H none ('[' :: rest) (.cell 0) st 0 r) := by
  have h1 : ∀ j, j ≠ 0 → GB j = none := fun j hj => by simp [GB, hj]
  constructor
  · refine (C34_reentrance_blocks (H := (fun _ _ _ st => (.panic, st) : Handler Char Nat σ)) rfl h1 0).1 fun r => ?_
    rw [parses_iff, brackets, parseL_enclose, lit_bracket]
    simp only [caseR, matL_none, parseL_or]
    have : parseL (neverReturns GB 0) none ('[' :: rest) (.cell 0) 1 = none := by
      cases h : parseL (neverReturns GB 0) none ('[' :: rest) (.cell 0) 1 with
      | none => rfl
      | some r => obtain ⟨n, h⟩ := parses_iff.mpr h; rw [parse_hang] at h; cases h
    simp [this]
  · intro H st
    refine (C34_reentrance_blocks (H := H) rfl h1 0).2 st fun r => ?_
    rw [constructs_iff, brackets, conL_enclose, lit_bracket]
    have : conL (neverReturns GB 0) H none ('[' :: rest) (.cell 0) st 1 = none := by
      cases h : conL (neverReturns GB 0) H none ('[' :: rest) (.cell 0) st 1 with
      | none => rfl
      | some r => obtain ⟨n, h⟩ := constructs_iff.mpr h; rw [con_hang] at h; cases h
    simp only [caseM, conL_or, this, caseC]
    simp

end Neure
