import Verif.LocalityCtor
import Verif.Demo
/-!
# C27: matching depends only on the remaining input
-/

namespace Neure

open Demo

variable {ι β σ : Type} [Item ι] {G : Rules ι β}

/-- **C27.** For patterns without the `start` anchor (and whose user closures
look at the remaining input only), matching with `pre` in front of the input,
`blen pre` further on, gives exactly the outcomes of matching without `pre`,
moved by `blen pre`.  In particular (`o = 0`): matching at offset `k` is matching
the suffix from 0. Holds with and without a skip policy. -/
theorem C27_depends_only_on_remaining_input (pol : Option (Pat ι β)) (hpol : LocalPol G pol)
    (p : Pat ι β) (hp : All G Local p) (pre d : List ι) (o : Nat) (r : Res Span) :
    Runs G pol (pre ++ d) p (blen pre + o) r ↔
      ∃ r0, Runs G pol d p o r0 ∧ r = r0.shift (blen pre) := by
  have key : ∀ n, tryMat G n pol (pre ++ d) p (blen pre + o) = sh (blen pre) (tryMat G n pol d p o) :=
    fun n => mat_sh hpol pre d (fun pol h q hq o => parse_sh n pol h pre d q hq o) p hp o
  unfold Runs
  simp only [key, sh]
  constructor
  · rintro ⟨n, hn⟩
    cases h : tryMat G n pol d p o with
    | none => rw [h] at hn; cases hn
    | some r0 => rw [h] at hn; exact ⟨r0, ⟨n, h⟩, (Option.some.inj hn).symm⟩
  · rintro ⟨r0, ⟨n, hn⟩, rfl⟩
    exact ⟨n, by rw [hn]; rfl⟩

/-- The suffix form: at a position `o` of the input, with `rest` remaining. -/
theorem C27_suffix (p : Pat ι β) (hp : All G Local p) (d rest : List ι) (o : Nat)
    (hd : ∃ pre, d = pre ++ rest ∧ blen pre = o) (r : Res Span) :
    Runs G none d p o r ↔ ∃ r0, Runs G none rest p 0 r0 ∧ r = r0.shift o := by
  obtain ⟨pre, rfl, rfl⟩ := hd
  exact C27_depends_only_on_remaining_input none (fun _ h => by cases h) p hp pre rest 0 r

/-- Non-trivial instance: the recursive grammar of nested parentheses. -/
example : All GP Local parens ∧ Runs GP none ['(', '(', ')', ')'] parens 1 (.ok ⟨1, 2⟩ 3) :=
  ⟨all_parens trivial trivial trivial trivial trivial, 12, by decide⟩

/-- **C27 (counterexample).** With the `start` anchor the outcome differs. -/
theorem C27_start_counterexample :
    Runs (β := Nat) G0 none ['a'] .start 0 (.ok ⟨0, 0⟩ 0) ∧
    Runs (β := Nat) G0 none ['b', 'a'] .start 1 (.err .anchorStart 1) :=
  ⟨⟨1, by decide⟩, 1, by decide⟩

/-! ## Building values -/

/-- A handler that looks at the remaining input only (and at the text of the match): text in front
of the input does not change its answer. -/
def LocalHandler (H : Handler ι β σ) : Prop :=
  ∀ pre d o s st, H (pre ++ d) (blen pre + o) (s.shift (blen pre)) st = H d o s st

/-- **C27 (building).** The value built with `pre` in front of the input, `blen pre` further on, is
the value built without `pre`; the handler's state is the same, the position is moved by `blen pre`. -/
theorem C27_construct {H : Handler ι β σ} (pol : Option (Pat ι β)) (hpol : LocalPol G pol) (hH : LocalHandler H)
    (p : Pat ι β) (hp : All G Local p) (hd : All G LocalDyn p) (pre d : List ι) (st : σ) (o : Nat)
    (r : CRes σ (Val β)) :
    Constructs G H pol (pre ++ d) p st (blen pre + o) r ↔
      ∃ r0, Constructs G H pol d p st o r0 ∧ r = r0.shift (blen pre) := by
  have key : ∀ n, con G H n pol (pre ++ d) p st (blen pre + o) = shC (blen pre) (con G H n pol d p st o) :=
    fun n => con_sh n pol hpol pre d (fun o s st => hH pre d o s st) p hp hd st o
  unfold Constructs
  simp only [key, shC]
  constructor
  · rintro ⟨n, hn⟩
    cases h : con G H n pol d p st o with
    | none => rw [h] at hn; cases hn
    | some r0 => rw [h] at hn; exact ⟨r0, ⟨n, h⟩, (Option.some.inj hn).symm⟩
  · rintro ⟨r0, ⟨n, hn⟩, rfl⟩
    exact ⟨n, by rw [hn]; rfl⟩

/-- The handlers of `ctx.ctor` (the text of the match) and of `Extract<()>` are such handlers. -/
theorem C27_extract : LocalHandler (extractH : Handler ι (List ι) σ) ∧ LocalHandler (unitH : Handler ι Unit σ) := by
  refine ⟨fun pre d o s st => ?_, fun _ _ _ _ _ => rfl⟩
  simp only [extractH, origSub, Span.shift, dropB_pre]

/-- Spans are moved: the handler of `ctx.ctor_span` is not such a handler, and the values differ. -/
theorem C27_span_counterexample :
    Constructs (σ := Unit) G0 spanH none ['a'] (.lit ['a']) () 0 (.ok (.base ⟨0, 1⟩) () 1) ∧
    Constructs (σ := Unit) G0 spanH none ['b', 'a'] (.lit ['a']) () 1 (.ok (.base ⟨1, 1⟩) () 2) :=
  ⟨⟨2, rfl⟩, 2, rfl⟩

/-- Non-trivial instance: the value of nested parentheses anywhere in a text. -/
example (pre d : List Char) (r : CRes Unit (Val (List Char))) :
    Constructs G0 extractH none (pre ++ d) (.thn (.lit ['a']) (.many0 (.item 'b') .empty)) () (blen pre) r ↔
      ∃ r0, Constructs G0 extractH none d (.thn (.lit ['a']) (.many0 (.item 'b') .empty)) () 0 r0 ∧
        r = r0.shift (blen pre) := by
  refine C27_construct none (fun _ h => by cases h) C27_extract.1 _ ?_ ?_ pre d () 0 r
  · refine All.intro (by exact trivial) ?_
    rintro q (rfl | rfl)
    · exact all_lit (by exact trivial)
    · exact All.intro (by exact trivial) fun _ h => absurd h id
  · refine All.intro (by exact trivial) ?_
    rintro q (rfl | rfl)
    · exact all_lit (by exact trivial)
    · exact All.intro (by exact trivial) fun _ h => absurd h id

end Neure
