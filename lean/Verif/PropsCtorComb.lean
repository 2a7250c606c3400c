import Verif.CtorInv
import Verif.PropsCtorLoop
/-!
# C06–C10, C21, C50 (constructing): what each combinator builds

`Constructs G H pol d p st o r`: `p.construct(&mut ctx, &mut handler)` returns
with `r`, the handler being in state `st` before.
-/

namespace Neure

set_option linter.unusedSectionVars false
set_option linter.unusedSimpArgs false

open Demo

variable {ι β σ : Type} [Item ι] {G : Rules ι β} {H : Handler ι β σ} {pol : Option (Pat ι β)}
  {d : List ι}

theorem con_iff (p : Pat ι β) (st : σ) (o : Nat) (r : CRes σ (Val β)) :
    Constructs G H pol d p st o r ↔ conL G H pol d p st o = some r := constructs_iff

theorem run_iff (p : Pat ι β) (o : Nat) (r : Res Span) :
    Runs G pol d p o r ↔ matL G pol d p o = some r := runs_iff

/-! ## C06: ordered choice -/

/-- **C06 (`or`, constructing).** -/
theorem C06_or_construct (a b : Pat ι β) (st : σ) (o : Nat) :
    (∀ v st' o', Constructs G H pol d (.or a b) st o (.ok v st' o') ↔
      Constructs G H pol d a st o (.ok v st' o') ∨
      ∃ e st1 o1, Constructs G H pol d a st o (.err e st1 o1) ∧
        Constructs G H pol d b st1 o (.ok v st' o')) ∧
    (∀ e st' o', Constructs G H pol d (.or a b) st o (.err e st' o') ↔
      o' = o ∧ ∃ e1 st1 o1 o2, Constructs G H pol d a st o (.err e1 st1 o1) ∧
        Constructs G H pol d b st1 o (.err e st' o2)) ∧
    (Constructs G H pol d (.or a b) st o .panic ↔
      Constructs G H pol d a st o .panic ∨
      ∃ e st1 o1, Constructs G H pol d a st o (.err e st1 o1) ∧ Constructs G H pol d b st1 o .panic) := by
  simp only [con_iff, conL_or, caseC_some]
  grind

example : Constructs (σ := Nat) G0 lenH none ['b', 'b'] (.or (.lit ['a']) (.lit ['b', 'b'])) 0 0
    (.ok (.base 2) 1 2) := ⟨4, by decide⟩

/-! ## C07: longest match -/

/-- **C07 (`longest`, constructing).** The alternative reaching further wins,
`a` on ties. -/
theorem C07_longest_construct (a b : Pat ι β) (st : σ) (o : Nat) :
    (∀ v st' o', Constructs G H pol d (.longest a b) st o (.ok v st' o') ↔
      (∃ st1 w ob, Constructs G H pol d a st o (.ok v st1 o') ∧
        Constructs G H pol d b st1 o (.ok w st' ob) ∧ ob ≤ o') ∨
      (∃ st1 w oa, Constructs G H pol d a st o (.ok w st1 oa) ∧
        Constructs G H pol d b st1 o (.ok v st' o') ∧ oa < o') ∨
      (∃ st1 e ob, Constructs G H pol d a st o (.ok v st1 o') ∧
        Constructs G H pol d b st1 o (.err e st' ob)) ∨
      (∃ st1 e oa, Constructs G H pol d a st o (.err e st1 oa) ∧
        Constructs G H pol d b st1 o (.ok v st' o'))) ∧
    (∀ e st' o', Constructs G H pol d (.longest a b) st o (.err e st' o') ↔
      o' = o ∧ ∃ e1 st1 o1 o2, Constructs G H pol d a st o (.err e1 st1 o1) ∧
        Constructs G H pol d b st1 o (.err e st' o2)) := by
  simp only [con_iff, conL_longest, caseC_some]
  refine ⟨fun v st' o' => ?_, fun e st' o' => ?_⟩ 
  · constructor
    · rintro (⟨_, h⟩ | ⟨sa, sta, oa, ha, ⟨_, h⟩ | ⟨sb, stb, ob, hb, h⟩ | ⟨eb, stb, ob, hb, h⟩⟩ |
        ⟨ea, sta, oa, ha, ⟨_, h⟩ | ⟨sb, stb, ob, hb, h⟩ | ⟨_, _, _, _, h⟩⟩)
      · cases h
      · cases h
      · split at h
        · next hc => cases h; exact .inl ⟨_, _, _, ha, hb, hc⟩
        · next hc => cases h; exact .inr (.inl ⟨_, _, _, ha, hb, by omega⟩)
      · cases h; exact .inr (.inr (.inl ⟨_, _, _, ha, hb⟩))
      · cases h
      · cases h; exact .inr (.inr (.inr ⟨_, _, _, ha, hb⟩))
      · cases h
    · rintro (⟨st1, w, ob, ha, hb, hc⟩ | ⟨st1, w, oa, ha, hb, hc⟩ | ⟨st1, e, ob, ha, hb⟩ |
        ⟨st1, e, oa, ha, hb⟩)
      · exact .inr (.inl ⟨_, _, _, ha, .inr (.inl ⟨_, _, _, hb, by rw [if_pos hc]⟩)⟩)
      · exact .inr (.inl ⟨_, _, _, ha, .inr (.inl ⟨_, _, _, hb, by rw [if_neg (by omega)]⟩)⟩)
      · exact .inr (.inl ⟨_, _, _, ha, .inr (.inr ⟨_, _, _, hb, rfl⟩)⟩)
      · exact .inr (.inr ⟨_, _, _, ha, .inr (.inl ⟨_, _, _, hb, rfl⟩)⟩)
  · constructor
    · rintro (⟨_, h⟩ | ⟨sa, sta, oa, ha, ⟨_, h⟩ | ⟨sb, stb, ob, hb, h⟩ | ⟨eb, stb, ob, hb, h⟩⟩ |
        ⟨ea, sta, oa, ha, ⟨_, h⟩ | ⟨sb, stb, ob, hb, h⟩ | ⟨_, _, _, hb, h⟩⟩)
      · cases h
      · cases h
      · split at h <;> cases h
      · cases h
      · cases h
      · cases h
      · cases h; exact ⟨rfl, _, _, _, _, ha, hb⟩
    · rintro ⟨rfl, e1, st1, o1, o2, ha, hb⟩
      exact .inr (.inr ⟨_, _, _, ha, .inr (.inr ⟨_, _, _, hb, rfl⟩)⟩)

example : Constructs (σ := Nat) G0 lenH none ['a', 'b'] (.longest (.lit ['a']) (.lit ['a', 'b'])) 0 0
    (.ok (.base 2) 2 2) := ⟨4, by decide⟩

/-! ## C08: sequencing -/

/-- **C08 (`then`, constructing).** Both values, in order; a failing part fails
the whole with its error, position restored. -/
theorem C08_then_construct (a b : Pat ι β) (st : σ) (o : Nat) :
    (∀ v st' o', Constructs G H pol d (.thn a b) st o (.ok v st' o') ↔
      ∃ v1 v2 st1 o1, v = .pair v1 v2 ∧ Constructs G H pol d a st o (.ok v1 st1 o1) ∧
        Constructs G H pol d b st1 o1 (.ok v2 st' o')) ∧
    (∀ e st' o', Constructs G H pol d (.thn a b) st o (.err e st' o') ↔
      o' = o ∧ ((∃ o1, Constructs G H pol d a st o (.err e st' o1)) ∨
        ∃ v1 st1 o1 o2, Constructs G H pol d a st o (.ok v1 st1 o1) ∧
          Constructs G H pol d b st1 o1 (.err e st' o2))) ∧
    (Constructs G H pol d (.thn a b) st o .panic ↔
      Constructs G H pol d a st o .panic ∨
      ∃ v st1 o1, Constructs G H pol d a st o (.ok v st1 o1) ∧ Constructs G H pol d b st1 o1 .panic) := by
  simp only [con_iff, conL_thn, caseC_some]
  grind

/-- **C08 (`prefix`, constructing).** The prefix is matched, the value is that of
the pattern after it. -/
theorem C08_prefix_construct (a b : Pat ι β) (st : σ) (o : Nat) :
    (∀ v st' o', Constructs G H pol d (.pre a b) st o (.ok v st' o') ↔
      ∃ s o1, Runs G pol d a o (.ok s o1) ∧ Constructs G H pol d b st o1 (.ok v st' o')) ∧
    (∀ e st' o', Constructs G H pol d (.pre a b) st o (.err e st' o') ↔
      o' = o ∧ ((st' = st ∧ ∃ o1, Runs G pol d a o (.err e o1)) ∨
        ∃ s o1 o2, Runs G pol d a o (.ok s o1) ∧ Constructs G H pol d b st o1 (.err e st' o2))) := by
  simp only [con_iff, run_iff, conL_pre, caseC_some, caseM_some]
  grind

/-- **C08 (`suffix`, constructing).** -/
theorem C08_suffix_construct (a b : Pat ι β) (st : σ) (o : Nat) :
    (∀ v st' o', Constructs G H pol d (.suf a b) st o (.ok v st' o') ↔
      ∃ s o1, Constructs G H pol d a st o (.ok v st' o1) ∧ Runs G pol d b o1 (.ok s o')) ∧
    (∀ e st' o', Constructs G H pol d (.suf a b) st o (.err e st' o') ↔
      o' = o ∧ ((∃ o1, Constructs G H pol d a st o (.err e st' o1)) ∨
        ∃ v o1 o2, Constructs G H pol d a st o (.ok v st' o1) ∧ Runs G pol d b o1 (.err e o2))) := by
  simp only [con_iff, run_iff, conL_suf, caseC_some, caseM_some]
  grind

/-- **C08 (`enclose`, constructing).** -/
theorem C08_enclose_construct (a b c : Pat ι β) (st : σ) (o : Nat) :
    (∀ v st' o', Constructs G H pol d (.enclose a b c) st o (.ok v st' o') ↔
      ∃ s1 o1 o2 s2, Runs G pol d a o (.ok s1 o1) ∧ Constructs G H pol d b st o1 (.ok v st' o2) ∧
        Runs G pol d c o2 (.ok s2 o')) ∧
    (∀ e st' o', Constructs G H pol d (.enclose a b c) st o (.err e st' o') ↔
      o' = o ∧ ((st' = st ∧ ∃ o1, Runs G pol d a o (.err e o1)) ∨
        (∃ s o1 o2, Runs G pol d a o (.ok s o1) ∧ Constructs G H pol d b st o1 (.err e st' o2)) ∨
        ∃ s o1 v o2 o3, Runs G pol d a o (.ok s o1) ∧ Constructs G H pol d b st o1 (.ok v st' o2) ∧
          Runs G pol d c o2 (.err e o3))) := by
  simp only [con_iff, run_iff, conL_enclose, caseC_some, caseM_some]
  grind

/-- **C08 (`sep_once`, constructing).** -/
theorem C08_sepOnce_construct (a b c : Pat ι β) (st : σ) (o : Nat) :
    (∀ v st' o', Constructs G H pol d (.sepOnce a b c) st o (.ok v st' o') ↔
      ∃ v1 st1 o1 s o2 v2, v = .pair v1 v2 ∧ Constructs G H pol d a st o (.ok v1 st1 o1) ∧
        Runs G pol d b o1 (.ok s o2) ∧ Constructs G H pol d c st1 o2 (.ok v2 st' o')) ∧
    (∀ e st' o', Constructs G H pol d (.sepOnce a b c) st o (.err e st' o') ↔
      o' = o ∧ ((∃ o1, Constructs G H pol d a st o (.err e st' o1)) ∨
        (∃ v o1 o2, Constructs G H pol d a st o (.ok v st' o1) ∧ Runs G pol d b o1 (.err e o2)) ∨
        ∃ v st1 o1 s o2 o3, Constructs G H pol d a st o (.ok v st1 o1) ∧
          Runs G pol d b o1 (.ok s o2) ∧ Constructs G H pol d c st1 o2 (.err e st' o3))) := by
  simp only [con_iff, run_iff, conL_sepOnce, caseC_some, caseM_some]
  grind

example : Constructs (σ := Nat) G0 lenH none ['(', 'a', 'b', 'b', ')']
    (.enclose (.lit ['(']) (.thn (.lit ['a']) (.lit ['b', 'b'])) (.lit [')'])) 0 0
    (.ok (.pair (.base 1) (.base 2)) 2 5) := ⟨5, by decide⟩
example : Constructs (σ := Nat) G0 lenH none ['a', '=', 'b', 'b']
    (.sepOnce (.lit ['a']) (.lit ['=']) (.pre (.lit ['b']) (.suf (.lit ['b']) .anchorEnd))) 0 0
    (.ok (.pair (.base 1) (.base 1)) 2 4) := ⟨5, by decide⟩

/-! ## C09: `if_then` -/

/-- **C09 (constructing).** -/
theorem C09_ifThen_construct (a t b : Pat ι β) (st : σ) (o : Nat) :
    (∀ v st' o', Constructs G H pol d (.ifThen a t b) st o (.ok v st' o') ↔
      (∃ v1 e o2, v = .pair v1 .none ∧ Constructs G H pol d a st o (.ok v1 st' o') ∧
        Runs G pol d t o' (.err e o2)) ∨
      ∃ v1 st1 o1 s o2 v2, v = .pair v1 (.some v2) ∧ Constructs G H pol d a st o (.ok v1 st1 o1) ∧
        Runs G pol d t o1 (.ok s o2) ∧ Constructs G H pol d b st1 o2 (.ok v2 st' o')) ∧
    (∀ e st' o', Constructs G H pol d (.ifThen a t b) st o (.err e st' o') ↔
      o' = o ∧ ((∃ o1, Constructs G H pol d a st o (.err e st' o1)) ∨
        ∃ v st1 o1 s o2 o3, Constructs G H pol d a st o (.ok v st1 o1) ∧
          Runs G pol d t o1 (.ok s o2) ∧ Constructs G H pol d b st1 o2 (.err e st' o3))) := by
  simp only [con_iff, run_iff, conL_ifThen, caseC_some, caseM_some]
  grind

example : Constructs (σ := Nat) G0 lenH none ['a', '=', 'b']
    (.ifThen (.lit ['a']) (.lit ['=']) (.lit ['b'])) 0 0
    (.ok (.pair (.base 1) (.some (.base 1))) 2 3) ∧
  Constructs (σ := Nat) G0 lenH none ['a', '+', 'b']
    (.ifThen (.lit ['a']) (.lit ['=']) (.lit ['b'])) 0 0
    (.ok (.pair (.base 1) .none) 1 1) := ⟨⟨5, by decide⟩, ⟨5, by decide⟩⟩

/-! ## C10: `opt` -/

/-- **C10 (constructing).** `p.opt()` is `Some` of `p`'s value, or `None` at the
unchanged offset; it never fails. -/
theorem C10_opt_construct (p : Pat ι β) (st : σ) (o : Nat) :
    (∀ v st' o', Constructs G H pol d (.opt p) st o (.ok v st' o') ↔
      (∃ w, v = .some w ∧ Constructs G H pol d p st o (.ok w st' o')) ∨
      (v = .none ∧ o' = o ∧ ∃ e o1, Constructs G H pol d p st o (.err e st' o1))) ∧
    (∀ e st' o', ¬ Constructs G H pol d (.opt p) st o (.err e st' o')) ∧
    (Constructs G H pol d (.opt p) st o .panic ↔ Constructs G H pol d p st o .panic) := by
  simp only [con_iff, conL_opt, caseC_some]
  grind

/-! ## C21: dynamic patterns -/

/-- **C21 (constructing).** `p.dyn_then_ctor(f)`: the pattern computed from the
first value is constructed right where the closure left the position; success
yields both values; a failing pattern fails the whole with the position
restored.  When the closure fails, the position is the one the closure left
(normally the end of the first match), *not* the original one. -/
theorem C21_dthen_construct (p : Pat ι β) (f : List ι → Nat → Val β → Res (Pat ι β)) (st : σ) (o : Nat) :
    (∀ v st' o', Constructs G H pol d (.dthen p f) st o (.ok v st' o') ↔
      ∃ v1 st1 o1 q o2 v2, v = .pair v1 v2 ∧ Constructs G H pol d p st o (.ok v1 st1 o1) ∧
        f d o1 v1 = .ok q o2 ∧ Constructs G H pol d q st1 o2 (.ok v2 st' o')) ∧
    (∀ e st' o', Constructs G H pol d (.dthen p f) st o (.err e st' o') ↔
      (o' = o ∧ ∃ o1, Constructs G H pol d p st o (.err e st' o1)) ∨
      (∃ v1 o1, Constructs G H pol d p st o (.ok v1 st' o1) ∧ f d o1 v1 = .err e o') ∨
      (o' = o ∧ ∃ v1 st1 o1 q o2 o3, Constructs G H pol d p st o (.ok v1 st1 o1) ∧
        f d o1 v1 = .ok q o2 ∧ Constructs G H pol d q st1 o2 (.err e st' o3))) := by
  simp only [con_iff, conL_dthen, caseC_some, caseM_some, Option.some.injEq]
  grind

/-- A length-prefixed field: the first value says how many bytes follow. -/
def lengthPrefixed : Pat Char Nat :=
  .dthen (.many1 (.item '#') .empty) fun _ o v => match v with
    | .base n => .ok (.consume n) o
    | _ => .err .selectEq o

example : Constructs (σ := Nat) G0 lenH none ['#', '#', 'x', 'y', 'z'] lengthPrefixed 0 0
    (.ok (.pair (.base 2) (.base 2)) 2 4) := ⟨5, by decide⟩

/-- **C21 (constructing, counterexample).** When the closure fails the position
is not restored, although the documentation says so. -/
theorem C21_dthen_counterexample :
    Constructs (σ := Nat) G0 lenH none ['a', 'b']
      (.dthen (.lit ['a']) fun _ o _ => .err (.uid 3) o) 0 0 (.err (.uid 3) 1 1) := ⟨4, by decide⟩

/-- **C21 (matching mode of `dthen`).** It is `unimplemented!`: it always panics. -/
theorem C21_dthen_no_match (p : Pat ι β) (f : List ι → Nat → Val β → Res (Pat ι β)) (o : Nat) :
    Parses G pol d (.dthen p f) o .panic := by
  rw [parses_iff, parseL_dthen]

/-! ## C50: `branch` -/

/-- **C50 (constructing).** -/
theorem C50_branch_construct (t : List ι → Nat → Out Bool) (a b : Pat ι β) (st : σ) (o : Nat) :
    (∀ v st' o', Constructs G H pol d (.branch t a b) st o (.ok v st' o') ↔
      (t d o = .ok true ∧ Constructs G H pol d a st o (.ok v st' o')) ∨
      (t d o = .ok false ∧ Constructs G H pol d b st o (.ok v st' o'))) ∧
    (∀ e st' o', Constructs G H pol d (.branch t a b) st o (.err e st' o') ↔ o' = o ∧
      ((t d o = .ok true ∧ ∃ o1, Constructs G H pol d a st o (.err e st' o1)) ∨
       (t d o = .ok false ∧ ∃ o1, Constructs G H pol d b st o (.err e st' o1)) ∨
       (t d o = .err e ∧ st' = st))) := by
  simp only [con_iff, conL_branch, caseC_some, caseT_some]
  grind

example : Constructs (σ := Nat) G0 lenH none ['a', 'b']
    (.branch (fun _ o => .ok (decide (o = 0))) (.lit ['a']) (.lit ['b'])) 0 0 (.ok (.base 1) 1 1) ∧
  Constructs (σ := Nat) G0 lenH none ['a', 'b']
    (.branch (fun _ o => .ok (decide (o = 0))) (.lit ['a']) (.lit ['b'])) 0 1 (.ok (.base 1) 1 2) :=
  ⟨⟨4, by decide⟩, ⟨4, by decide⟩⟩

end Neure
