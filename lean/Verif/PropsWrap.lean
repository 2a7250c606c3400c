import Verif.Wrap
import Verif.PropsPolicy
import Verif.PropsSurface
/-!
# C73: containers around a pattern
-/

namespace Neure

set_option linter.unusedSectionVars false
set_option linter.unusedSimpArgs false

open Demo

variable {ι β σ : Type} [Item ι] {G : Rules ι β} {H : Handler ι β σ} {pol : Option (Pat ι β)} {d : List ι}

/-- Specification: inside its containers `w` is the pattern `p`; none of them is a
`None`, mutably borrowed or poisoned. -/
inductive Wrapped.Holds : Wrapped ι β σ → Pat ι β → Prop where
  | of (p : Pat ι β) : Holds (.of p) p
  | ptr (k : Pointer) {w : Wrapped ι β σ} {p : Pat ι β} : Holds w p → Holds (.ptr k w) p
  | regex (k : RegexPointer) {w : Wrapped ι β σ} {p : Pat ι β} : Holds w p → Holds (.regex k w) p
  | some {w : Wrapped ι β σ} {p : Pat ι β} : Holds w p → Holds (.some w) p
  | refCell {w : Wrapped ι β σ} {p : Pat ι β} : Holds w p → Holds (.refCell false w) p
  | mutex {w : Wrapped ι β σ} {p : Pat ι β} : Holds w p → Holds (.mutex false w) p

/-- Specification: one of the containers of `w` knows of its content only that it is a
pattern (`regex::Adapter`, `Box<dyn Regex>`, …). -/
def Wrapped.AsRegex : Wrapped ι β σ → Prop
  | .of _ | .none | .func _ => False
  | .regex _ _ => True
  | .ptr _ w | .some w | .refCell _ w | .mutex _ w => w.AsRegex

/-- Specification: the first of the containers, from the outside, that stops the call:
an empty `Option`, a poisoned mutex. -/
inductive Wrapped.Stops : Wrapped ι β σ → Error → Prop where
  | none : Stops .none .option
  | poisoned (w : Wrapped ι β σ) : Stops (.mutex true w) .mutex
  | ptr (k : Pointer) {w : Wrapped ι β σ} {e : Error} : Stops w e → Stops (.ptr k w) e
  | regex (k : RegexPointer) {w : Wrapped ι β σ} {e : Error} : Stops w e → Stops (.regex k w) e
  | some {w : Wrapped ι β σ} {e : Error} : Stops w e → Stops (.some w) e
  | refCell {w : Wrapped ι β σ} {e : Error} : Stops w e → Stops (.refCell false w) e
  | mutex {w : Wrapped ι β σ} {e : Error} : Stops w e → Stops (.mutex false w) e

/-- `w.try_parse(ctx)`, `ctx.try_mat(w)`, `w.construct(ctx, handler)` finish. -/
def Wrapped.Parses (G : Rules ι β) (pol : Option (Pat ι β)) (d : List ι) (w : Wrapped ι β σ) (o : Nat) (r : Res Span) : Prop :=
  ∃ n, w.parse G n pol d o = Option.some r
def Wrapped.Runs (G : Rules ι β) (pol : Option (Pat ι β)) (d : List ι) (w : Wrapped ι β σ) (o : Nat) (r : Res Span) : Prop :=
  ∃ n, w.mat G n pol d o = Option.some r
def Wrapped.Constructs (G : Rules ι β) (H : Handler ι β σ) (pol : Option (Pat ι β)) (d : List ι) (w : Wrapped ι β σ)
    (st : σ) (o : Nat) (r : CRes σ (Val β)) : Prop := ∃ n, w.con G H n pol d st o = Option.some r

theorem Wrapped.parse_holds {w : Wrapped ι β σ} {p : Pat ι β} (h : w.Holds p) (n : Nat) (o : Nat) :
    w.parse G n pol d o = Neure.parse G n pol d p o := by
  induction h with
  | of => rfl
  | ptr _ _ ih | regex _ _ ih | some _ ih => exact ih
  | refCell _ ih | mutex _ ih => simpa [Wrapped.parse] using ih

theorem Wrapped.mat_holds {w : Wrapped ι β σ} {p : Pat ι β} (h : w.Holds p) (n : Nat) (o : Nat) :
    w.mat G n pol d o = tryMat G n pol d p o := by
  cases pol with
  | none => exact parse_holds h n o
  | some q => simp only [Wrapped.mat, tryMat, matWith, parse_holds h]

/-- **C73 (matching).** Containers do not change what a pattern matches. -/
theorem C73_match (w : Wrapped ι β σ) (p : Pat ι β) (h : w.Holds p) (o : Nat) (r : Res Span) :
    (w.Parses G pol d o r ↔ Parses G pol d p o r) ∧ (w.Runs G pol d o r ↔ Runs G pol d p o r) := by
  unfold Wrapped.Parses Wrapped.Runs
  simp only [Wrapped.parse_holds h, Wrapped.mat_holds h]
  exact ⟨Iff.rfl, Iff.rfl⟩

/-- **C73 (constructing).** Containers of constructors do not change what is built.
With a container that knows only the pattern, the handler gets the matched span of the
whole content, whatever the content would build. -/
theorem C73_construct (w : Wrapped ι β σ) (p : Pat ι β) (h : w.Holds p) (st : σ) (o : Nat) (r : CRes σ (Val β)) :
    (¬ w.AsRegex → (w.Constructs G H pol d st o r ↔ Constructs G H pol d p st o r)) ∧
    (w.AsRegex → (w.Constructs G H pol d st o r ↔ MapHandler G H pol d p st o r)) := by
  have key : (¬ w.AsRegex → ∀ n, w.con G H n pol d st o = Neure.con G H n pol d p st o) ∧
      (w.AsRegex → ∀ n, w.con G H n pol d st o = invokeK H d st (tryMat G n pol d p o)) := by
    induction h with
    | of p => exact ⟨fun _ _ => rfl, fun h => h.elim⟩
    | ptr _ _ ih | some _ ih => exact ih
    | refCell _ ih | mutex _ ih => simpa [Wrapped.con, Wrapped.AsRegex] using ih
    | regex k h ih =>
      refine ⟨fun h => absurd trivial h, fun _ n => ?_⟩
      rw [← Wrapped.mat_holds (Wrapped.Holds.regex k h)]
      rfl
  constructor
  · intro hn; unfold Wrapped.Constructs; simp only [key.1 hn]; exact Iff.rfl
  · intro hn; unfold Wrapped.Constructs; simp only [key.2 hn]; exact Iff.rfl

/-- **C73 (nothing inside).** An empty `Option`, or a poisoned mutex, is a pattern that
fails with its error and does not move; `try_mat` fails after the skip of the policy. -/
theorem C73_stops (w : Wrapped ι β σ) (e : Error) (h : w.Stops e) (st : σ) (o : Nat) :
    (∀ r, w.Parses G pol d o r ↔ r = .err e o) ∧
    (∀ r, w.Runs G none d o r ↔ r = .err e o) ∧
    (∀ q s o1, Runs G none d q o (.ok s o1) → ∀ r, w.Runs G (some q) d o r ↔ r = .err e o1) ∧
    (¬ w.AsRegex → ∀ r, w.Constructs G H pol d st o r ↔ r = .err e st o) := by
  have hp : ∀ pol n o, w.parse G n pol d o = Option.some (.err e o) := by
    intro pol n o
    induction h with
    | none => rfl
    | poisoned => rfl
    | ptr _ _ ih | regex _ _ ih | some _ ih => exact ih
    | refCell _ ih | mutex _ ih => simpa [Wrapped.parse] using ih
  refine ⟨fun r => ?_, fun r => ?_, fun q s o1 hq r => ?_, fun hn r => ?_⟩
  · unfold Wrapped.Parses; simp [hp, eq_comm]
  · unfold Wrapped.Runs; simp [Wrapped.mat, hp, eq_comm]
  · obtain ⟨n, hn⟩ := hq
    have hn : Neure.parse G n none d q o = some (.ok s o1) := hn
    unfold Wrapped.Runs
    constructor
    · rintro ⟨m, hm⟩
      simp only [Wrapped.mat, hp] at hm
      cases hx : Neure.parse G m none d q o with
      | none => simp [hx, caseR] at hm
      | some v =>
        have : v = .ok s o1 := by
          have h1 := parse_mono G none d q o _ _ (Nat.le_max_left m n) _ hx
          have h2 := parse_mono G none d q o _ _ (Nat.le_max_right m n) _ hn
          rw [h1] at h2; exact Option.some.inj h2
        subst this
        simp only [hx, caseR, Option.some.injEq] at hm
        exact hm.symm
    · rintro rfl
      exact ⟨n, by simp [Wrapped.mat, hp, hn, caseR]⟩
  · have hc : ∀ n, w.con G H n pol d st o = Option.some (.err e st o) := by
      intro n
      induction h with
      | none => rfl
      | poisoned => rfl
      | ptr _ _ ih | some _ ih => exact ih hp hn
      | regex => exact absurd trivial hn
      | refCell _ ih | mutex _ ih => simpa [Wrapped.con] using ih hp hn
    unfold Wrapped.Constructs
    simp [hc, eq_comm]

/-- **C73 (`Adapter::func`).** It builds what the function builds, but it is no pattern:
matching it panics. -/
theorem C73_func (f : List ι → σ → Nat → CRes σ (Val β)) (st : σ) (o : Nat) :
    (∀ k r, (Wrapped.ptr k (.func f)).Constructs G H pol d st o r ↔ r = f d st o) ∧
    (∀ r, (Wrapped.func f).Parses G pol d o r ↔ r = .panic) := by
  constructor
  · intro k r; unfold Wrapped.Constructs; simp [Wrapped.con, eq_comm]
  · intro r; unfold Wrapped.Parses; simp [Wrapped.parse, eq_comm]

/-- **C73 (inside other patterns).** A container of constructors is a handle with that
content, so that C66 applies to it inside any pattern. A container that knows only the
pattern builds what `p.pat()` builds, and on a plain context also matches like it. -/
theorem C73_inside (p : Pat ι β) (i : Nat) (hi : G i = some p) (k : Pointer) (k' : RegexPointer) (st : σ) (o : Nat) :
    (∀ r, (Wrapped.ptr (σ := σ) k (.of p)).Parses G pol d o r ↔ Parses G pol d (.cell i) o r) ∧
    (∀ r, (Wrapped.ptr k (.of p)).Constructs G H pol d st o r ↔ Constructs G H pol d (.cell i) st o r) ∧
    (∀ r, (Wrapped.regex (σ := σ) k' (.of p)).Parses G none d o r ↔ Parses G none d (.pat p) o r) ∧
    (∀ r, (Wrapped.regex k' (.of p)).Constructs G H pol d st o r ↔ Constructs G H pol d (.pat p) st o r) := by
  have mh : ∀ r, MapHandler G H pol d p st o r ↔ invokeK H d st (matL G pol d p o) = some r := by
    intro r
    have ha : Approx (fun n => invokeK H d st (tryMat G n pol d p o)) (invokeK H d st (matL G pol d p o)) :=
      approx_invokeK (approx_tryMat G pol d p o)
    rw [← ha.2, lim_eq_some ha.1]; rfl
  refine ⟨fun r => ?_, fun r => ?_, fun r => ?_, fun r => ?_⟩
  · rw [(C73_match (σ := σ) _ p (.ptr k (.of p)) o r).1, parses_iff, parses_iff, parseL_cell, hi]
  · rw [(C73_construct _ p (.ptr k (.of p)) st o r).1 id, constructs_iff, constructs_iff, conL_cell, hi]
  · rw [(C73_match (σ := σ) _ p (.regex k' (.of p)) o r).1, parses_iff, parses_iff, parseL_pat, matL_none]
  · rw [(C73_construct _ p (.regex k' (.of p)) st o r).2 trivial, constructs_iff, conL_pat, mh]

/-- `into_box()` keeps the two values of `a.then(b)`; `into_box_regex()` makes it one
span; both match the same. -/
example : ∃ w w' : Wrapped Char (Nat × Nat) Unit,
    w = .ptr .ctorAdapter (.ptr .ctorBox (.of (.thn (.lit ['a']) (.lit ['b'])))) ∧
    w' = .regex .adapter (.regex .box (.of (.thn (.lit ['a']) (.lit ['b'])))) ∧
    w.Holds (.thn (.lit ['a']) (.lit ['b'])) ∧ w'.Holds (.thn (.lit ['a']) (.lit ['b'])) ∧ ¬ w.AsRegex ∧ w'.AsRegex ∧
    w.Constructs G0 whereH none ['a', 'b'] () 0 (.ok (.pair (.base (0, 1)) (.base (1, 1))) () 2) ∧
    w'.Constructs G0 whereH none ['a', 'b'] () 0 (.ok (.base (0, 2)) () 2) :=
  ⟨_, _, rfl, rfl, .ptr _ (.ptr _ (.of _)), .regex _ (.regex _ (.of _)), id, trivial, ⟨6, by decide⟩, ⟨6, by decide⟩⟩

example : (Wrapped.ptr (ι := Char) (β := Nat) (σ := Unit) .rc (.refCell false .none)).Stops .option := .ptr _ (.refCell .none)

end Neure
