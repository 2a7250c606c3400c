import Verif.PropsComb
import Verif.PropsCore
/-!
# C45: algebraic laws of patterns (matching on a plain context)
-/

namespace Neure

open Demo

set_option linter.unusedSectionVars false
set_option linter.unusedSimpArgs false

variable {ι β : Type} [Item ι] {G : Rules ι β}

/-- Same behaviour: on every input and at every offset the two patterns have the
same result (span, error, offset left behind, panic), and neither terminates
where the other does not. -/
def Equiv (G : Rules ι β) (p q : Pat ι β) : Prop :=
  ∀ (d : List ι) (o : Nat) (r : Res Span), Runs G none d p o r ↔ Runs G none d q o r

/-- Same behaviour except for the error value reported by a failure. -/
def EquivButError (G : Rules ι β) (p q : Pat ι β) : Prop :=
  ∀ (d : List ι) (o : Nat),
    (∀ s o', Runs G none d p o (.ok s o') ↔ Runs G none d q o (.ok s o')) ∧
    (∀ o', (∃ e, Runs G none d p o (.err e o')) ↔ ∃ e, Runs G none d q o (.err e o')) ∧
    (Runs G none d p o .panic ↔ Runs G none d q o .panic)

theorem equiv_iff {p q : Pat ι β} : Equiv G p q ↔ ∀ d o, parseL G none d p o = parseL G none d q o := by
  unfold Equiv
  simp only [runs_iff, matL_none]
  constructor
  · intro h d o
    cases hp : parseL G none d p o with
    | some r => exact ((h d o r).1 hp).symm
    | none =>
      cases hq : parseL G none d q o with
      | none => rfl
      | some r => rw [(h d o r).2 hq] at hp; cases hp
  · intro h d o r; rw [h]

theorem Equiv.refl (p : Pat ι β) : Equiv G p p := fun _ _ _ => Iff.rfl
theorem Equiv.symm {p q : Pat ι β} (h : Equiv G p q) : Equiv G q p := fun d o r => (h d o r).symm
theorem Equiv.trans {p q r : Pat ι β} (h : Equiv G p q) (h' : Equiv G q r) : Equiv G p r :=
  fun d o x => (h d o x).trans (h' d o x)
theorem Equiv.butError {p q : Pat ι β} (h : Equiv G p q) : EquivButError G p q :=
  fun d o => ⟨fun _ _ => h d o _, fun _ => exists_congr fun _ => h d o _, h d o _⟩

/-- What a tidy pattern can do. -/
theorem tidy_cases {p : Pat ι β} (h : All G Tidy p) (d : List ι) (o : Nat) :
    parseL G none d p o = none ∨ parseL G none d p o = some .panic ∨
    (∃ k, parseL G none d p o = some (.ok ⟨o, k⟩ (o + k))) ∨
    (∃ e, parseL G none d p o = some (.err e o)) := by
  cases hp : parseL G none d p o with
  | none => exact .inl rfl
  | some r =>
    have hr : Runs G none d p o r := by rw [runs_iff, matL_none]; exact hp
    obtain ⟨n, hn⟩ := hr
    have := exact_inv G n d p o h _ hn
    cases r with
    | ok s o' =>
      obtain ⟨h1, h2⟩ := this
      obtain ⟨b, k⟩ := s
      simp only at h1 h2
      subst h1; subst h2
      exact .inr (.inr (.inl ⟨k, rfl⟩))
    | err e o' => cases this; exact .inr (.inr (.inr ⟨e, rfl⟩))
    | panic => exact .inr (.inl rfl)

theorem addAssign_consec (o i k : Nat) :
    Span.addAssign ⟨o, i⟩ ⟨o + i, k⟩ = some ⟨o, i + k⟩ := by
  unfold Span.addAssign
  rw [if_pos (by dsimp only; omega)]
  simp only [Option.some.injEq, Span.mk.injEq, true_and]; omega

theorem addAssign_zero (o k : Nat) : Span.addAssign ⟨o, 0⟩ ⟨o, k⟩ = some ⟨o, k⟩ := by
  have := addAssign_consec o 0 k
  simpa using this

/-- **C45.**  `then` is associative. -/
theorem C45_then_assoc (a b c : Pat ι β) (ha : All G Tidy a) (hb : All G Tidy b)
    (hc : All G Tidy c) : Equiv G (.thn (.thn a b) c) (.thn a (.thn b c)) := by
  rw [equiv_iff]
  intro d o
  simp only [parseL_thn, seq2, matL_none]
  rcases tidy_cases ha d o with h | h | ⟨i, h⟩ | ⟨e, h⟩ <;> simp only [h, caseR]
  rcases tidy_cases hb d (o + i) with h | h | ⟨j, h⟩ | ⟨e, h⟩ <;>
    simp only [h, caseR, addK, addAssign_consec]
  rcases tidy_cases hc d (o + i + j) with h | h | ⟨k, h⟩ | ⟨e, h⟩ <;>
    simp only [h, caseR, addK, addAssign_consec]
  rw [Nat.add_assoc o i j, addAssign_consec, Nat.add_assoc i j k]

/-- **C45.**  `empty` is a unit of `then`, on both sides. -/
theorem C45_then_empty (a : Pat ι β) (ha : All G Tidy a) :
    Equiv G (.thn .empty a) a ∧ Equiv G (.thn a .empty) a := by
  simp only [equiv_iff, parseL_thn, seq2, matL_none, parseL_empty]
  refine ⟨fun d o => ?_, fun d o => ?_⟩
  · rcases tidy_cases ha d o with h | h | ⟨i, h⟩ | ⟨e, h⟩ <;>
      simp only [h, caseR, addK, addAssign_zero]
  · rcases tidy_cases ha d o with h | h | ⟨i, h⟩ | ⟨e, h⟩ <;>
      simp only [h, caseR, addK, addAssign_consec, Nat.add_zero]

/-- **C45.**  `fail` is a left zero of `then`: what follows is never tried. -/
theorem C45_fail_then (a : Pat ι β) : Equiv G (.thn .fail a) .fail := by
  rw [equiv_iff]
  intro d o
  simp only [parseL_thn, seq2, matL_none, parseL_fail, caseR]

/-- **C45.**  `or` is associative (no conditions: it resets before every
alternative). -/
theorem C45_or_assoc (a b c : Pat ι β) : Equiv G (.or (.or a b) c) (.or a (.or b c)) := by
  rw [equiv_iff]
  intro d o
  simp only [parseL_or, matL_none]
  rcases parseL G none d a o with _ | _ | _ | _ <;> simp only [caseR]
  rcases parseL G none d b o with _ | _ | _ | _ <;> simp only [caseR]
  rcases parseL G none d c o with _ | _ | _ | _ <;> rfl

/-- **C45.**  `fail` is a left unit of `or` and, up to the reported error, a
right unit. -/
theorem C45_or_fail (a : Pat ι β) (ha : All G Restores a) :
    Equiv G (.or .fail a) a ∧ EquivButError G (.or a .fail) a := by
  have key : ∀ d o e o', parseL G none d a o = some (.err e o') → o' = o := by
    intro d o e o' h
    exact C01_failed_match_restores_offset G d a ha o e o' (by rw [runs_iff, matL_none]; exact h)
  refine ⟨equiv_iff.2 fun d o => ?_, fun d o => ?_⟩
  · simp only [parseL_or, parseL_fail, matL_none, caseR]
    rcases h : parseL G none d a o with _ | _ | ⟨e, o'⟩ | _ <;> simp only [caseR]
    rw [key d o e o' h]
  · simp only [runs_iff, matL_none, parseL_or, parseL_fail]
    rcases h : parseL G none d a o with _ | ⟨s, o'⟩ | ⟨e, o'⟩ | _ <;> simp [caseR]
    rw [key d o e o' h]; exact fun _ => Iff.rfl

/-- **C45.**  `or` is idempotent. -/
theorem C45_or_idem (a : Pat ι β) (ha : All G Restores a) : Equiv G (.or a a) a := by
  rw [equiv_iff]
  intro d o
  simp only [parseL_or, matL_none]
  rcases h : parseL G none d a o with _ | _ | ⟨e, o'⟩ | _ <;> simp only [caseR]
  rw [C01_failed_match_restores_offset G d a ha o e o' (by rw [runs_iff, matL_none]; exact h)]

/-- **C45.**  `then` distributes over `or` from the left. -/
theorem C45_then_or_distrib (a b c : Pat ι β) :
    Equiv G (.thn a (.or b c)) (.or (.thn a b) (.thn a c)) := by
  rw [equiv_iff]
  intro d o
  simp only [parseL_or, parseL_thn, seq2, matL_none]
  rcases parseL G none d a o with _ | ⟨s, i⟩ | _ | _ <;> simp only [caseR]
  rcases parseL G none d b i with _ | ⟨t, j⟩ | _ | _ <;> simp only [caseR]
  · unfold addK
    cases s.addAssign t <;> rfl
  · rcases parseL G none d c i with _ | ⟨t, j⟩ | _ | _ <;> simp only [caseR]
    unfold addK
    cases s.addAssign t <;> rfl

/-- `then` does *not* distribute over `or` from the right: choices are committed
(no backtracking into a finished `or`). -/
theorem C45_or_then_distrib_counterexample :
    Runs (β := Nat) G0 none ['a', 'b', 'c'] (.thn (.or (.lit ['a']) (.lit ['a', 'b'])) (.lit ['c'])) 0
      (.err .literal 0) ∧
    Runs (β := Nat) G0 none ['a', 'b', 'c']
      (.or (.thn (.lit ['a']) (.lit ['c'])) (.thn (.lit ['a', 'b']) (.lit ['c']))) 0 (.ok ⟨0, 3⟩ 3) :=
  ⟨⟨5, by decide⟩, ⟨5, by decide⟩⟩

/-- **C45.**  `opt(p)` is `or(p, empty)`. -/
theorem C45_opt_is_or_empty (p : Pat ι β) : Equiv G (.opt p) (.or p .empty) := by
  rw [equiv_iff]
  intro d o
  simp only [parseL_opt, parseL_or, parseL_empty, matL_none]
  rcases parseL G none d p o with _ | _ | _ | _ <;> simp only [caseR]

/-- **C45.**  Assertions: `assert` is idempotent, three `not`s are one, and two
`not`s are an `assert` up to the error. -/
theorem C45_assertions (p : Pat ι β) :
    Equiv G (.assert (.assert p true) true) (.assert p true) ∧
    Equiv G (.assert (.assert (.assert p false) false) false) (.assert p false) ∧
    EquivButError G (.assert (.assert p false) false) (.assert p true) := by
  refine ⟨equiv_iff.2 fun d o => ?_, equiv_iff.2 fun d o => ?_, fun d o => ?_⟩
  · simp only [parseL_assert, matL_none]
    rcases parseL G none d p o with _ | _ | _ | _ <;> simp [caseR]
  · simp only [parseL_assert, matL_none]
    rcases parseL G none d p o with _ | _ | _ | _ <;> simp [caseR]
  · simp only [runs_iff, matL_none, parseL_assert]
    rcases parseL G none d p o with _ | _ | _ | _ <;> simp [caseR]

/-- **C45.**  The delimiting combinators match what the corresponding `then`s
match: `prefix`, `suffix`, `enclose`, `sep_once`. -/
theorem C45_delimiters_are_then (a b c : Pat ι β) :
    Equiv G (.pre a b) (.thn a b) ∧ Equiv G (.suf a b) (.thn a b) ∧
    (All G Tidy a → All G Tidy b → All G Tidy c →
      Equiv G (.enclose a b c) (.thn a (.thn b c)) ∧
      Equiv G (.sepOnce a b c) (.thn a (.thn b c))) := by
  refine ⟨equiv_iff.2 fun d o => by rw [parseL_pre, parseL_thn],
    equiv_iff.2 fun d o => by rw [parseL_suf, parseL_thn], fun ha hb hc => ⟨?_, ?_⟩⟩
  · refine Equiv.trans (equiv_iff.2 fun d o => ?_) (C45_then_assoc a b c ha hb hc)
    simp only [parseL_enclose, parseL_thn, seq2, matL_none]
    rcases tidy_cases ha d o with h | h | ⟨i, h⟩ | ⟨e, h⟩ <;> simp only [h, caseR]
    rcases tidy_cases hb d (o + i) with h | h | ⟨j, h⟩ | ⟨e, h⟩ <;>
      simp only [h, caseR, addK, addAssign_consec]
  · refine Equiv.trans (equiv_iff.2 fun d o => ?_) (C45_then_assoc a b c ha hb hc)
    simp only [parseL_sepOnce, parseL_thn, seq2, matL_none]
    rcases tidy_cases ha d o with h | h | ⟨i, h⟩ | ⟨e, h⟩ <;>
      simp only [h, caseR, addK, addAssign_zero]
    rcases tidy_cases hb d (o + i) with h | h | ⟨j, h⟩ | ⟨e, h⟩ <;>
      simp only [h, caseR, addK, addAssign_consec]

/-- **C45.**  An ordered choice is nested `or`s (up to the error reported when
nothing matches, which is the choice's own). -/
theorem C45_choice_is_or (e : Error) (a : Pat ι β) (v : Option (Val β))
    (items : List (Pat ι β × Option (Val β))) :
    Equiv G (.choice e ((a, v) :: items)) (.or a (.choice e items)) ∧
    EquivButError G (.choice e []) .fail := by
  constructor
  · rw [equiv_iff]
    intro d o
    simp only [parseL_choice, parseL_or, matL_none, choiceLoop]
    rcases parseL G none d a o with _ | _ | _ | _ <;> simp only [caseR]
    have : ∀ (l : List (Pat ι β × Option (Val β))), caseR (choiceLoop (matL G none d) e o l o)
        (fun s o2 => some (Res.ok s o2)) (fun e _ => some (Res.err e o)) =
          choiceLoop (matL G none d) e o l o := by
      intro l
      induction l with
      | nil => rfl
      | cons x l ih =>
        simp only [choiceLoop]
        rcases matL G none d x.1 o with _ | _ | _ | _ <;> simp only [caseR]
        exact ih
    exact (this items).symm
  · intro d o
    simp [runs_iff, matL_none, parseL_choice, parseL_fail, choiceLoop]

/-- **C45.**  The laws can be used inside a pattern: `Equiv` is preserved by the
combinators. -/
theorem C45_congruence {a a' b b' : Pat ι β} (ha : Equiv G a a') (hb : Equiv G b b') :
    Equiv G (.thn a b) (.thn a' b') ∧ Equiv G (.or a b) (.or a' b') ∧ Equiv G (.opt a) (.opt a') ∧
    (∀ v, Equiv G (.assert a v) (.assert a' v)) ∧ Equiv G (.longest a b) (.longest a' b') ∧
    (∀ f g, Equiv G (.map a f) (.map a' g)) ∧ (∀ t, Equiv G (.branch t a b) (.branch t a' b')) ∧
    (∀ r, Equiv G (.rep a r) (.rep a' r)) ∧ (∀ k, Equiv G (.collect a k) (.collect a' k)) ∧
    (∀ s k, Equiv G (.sep a b s k) (.sep a' b' s k)) := by
  have ea : ∀ d o, parseL G none d a o = parseL G none d a' o := equiv_iff.1 ha
  have eb : ∀ d o, parseL G none d b o = parseL G none d b' o := equiv_iff.1 hb
  have rep : ∀ (mt : Pat ι β → Nat → Option (Res Span)), (∀ o, mt a o = mt a' o) →
      ∀ more fin f c t o, repLoop mt a more fin f c t o = repLoop mt a' more fin f c t o := by
    intro mt h more fin f
    induction f with
    | zero => intros; rfl
    | succ f ih => intro c t o; simp only [repLoop, h, ih]
  have sep : ∀ (mt : Pat ι β → Nat → Option (Res Span)), (∀ o, mt a o = mt a' o) →
      (∀ o, mt b o = mt b' o) → ∀ s more fin f c t o,
      sepLoop mt a b s more fin f c t o = sepLoop mt a' b' s more fin f c t o := by
    intro mt h h' s more fin f
    induction f with
    | zero => intros; rfl
    | succ f ih => intro c t o; simp only [sepLoop, h, h', ih]
  refine ⟨?_, ?_, ?_, fun v => ?_, ?_, fun f g => ?_, fun t => ?_, fun r => ?_, fun k => ?_,
    fun s k => ?_⟩ <;> rw [equiv_iff] <;> intro d o
  · simp only [parseL_thn, seq2, matL_none, ea, eb]
  · simp only [parseL_or, matL_none, ea, eb]
  · simp only [parseL_opt, matL_none, ea]
  · simp only [parseL_assert, matL_none, ea]
  · simp only [parseL_longest, matL_none, ea, eb]
  · simp only [parseL_map, matL_none, ea]
  · simp only [parseL_branch, matL_none]
    congr 1; funext t; cases t <;> simp [ea, eb]
  · simp only [parseL_rep, repL]
    congr 1; funext f; exact rep _ (fun o => by simp only [matL_none, ea]) _ _ _ _ _ _
  · simp only [parseL_collect, repL]
    congr 1; funext f; exact rep _ (fun o => by simp only [matL_none, ea]) _ _ _ _ _ _
  · simp only [parseL_sep, sepL]
    congr 1; funext f
    exact sep _ (fun o => by simp only [matL_none, ea]) (fun o => by simp only [matL_none, eb])
      _ _ _ _ _ _ _

/-- Non-vacuity of C45: the associativity law on a recursive grammar. -/
example : Equiv GP (.thn (.thn parens parens) parens) (.thn parens (.thn parens parens)) ∧
    Runs GP none ['(', ')', '(', ')', '(', ')'] (.thn (.thn parens parens) parens) 0 (.ok ⟨0, 6⟩ 6) :=
  have h : All GP Tidy parens := all_parens trivial trivial trivial trivial trivial
  ⟨C45_then_assoc _ _ _ h h h, 20, by decide⟩

end Neure
