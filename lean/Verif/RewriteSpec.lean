import Verif.RefactorSpec
import Verif.CtorSpec
/-!
# Specification: patterns that behave alike

When two patterns behave alike, possibly up to the error values they report.
`E` says which error values count as the same: `Eq` for "exactly alike",
`AnyError` for "alike but for the errors".
-/

namespace Neure

variable {ι β σ : Type} [Item ι]

/-- All error values count as the same. -/
def AnyError (_ _ : Error) : Prop := True

/-- The same result, up to the error value of a failure.  In particular both
leave the same position behind. -/
inductive SameRes {α : Type} (E : Error → Error → Prop) : Res α → Res α → Prop where
  | ok (a o) : SameRes E (.ok a o) (.ok a o)
  | err {e e'} (o) : E e e' → SameRes E (.err e o) (.err e' o)
  | panic : SameRes E .panic .panic

/-- The same for constructing: the same value, handler state and position. -/
inductive SameCRes {α : Type} (E : Error → Error → Prop) : CRes σ α → CRes σ α → Prop where
  | ok (a st o) : SameCRes E (.ok a st o) (.ok a st o)
  | err {e e'} (st o) : E e e' → SameCRes E (.err e st o) (.err e' st o)
  | panic : SameCRes E .panic .panic

/-- On every input, at every position, in a context with policy `pol`, the two
patterns return the same, and neither returns where the other does not. -/
def ActAlike (E : Error → Error → Prop) (G : Rules ι β) (pol : Option (Pat ι β)) (p p' : Pat ι β) : Prop :=
  ∀ d o, (∀ r, Parses G pol d p o r → ∃ r', Parses G pol d p' o r' ∧ SameRes E r r') ∧
    (∀ r', Parses G pol d p' o r' → ∃ r, Parses G pol d p o r ∧ SameRes E r r')

/-- The same for constructing values with the handler `H`, whatever its state. -/
def BuildAlike (E : Error → Error → Prop) (G : Rules ι β) (H : Handler ι β σ) (pol : Option (Pat ι β))
    (p p' : Pat ι β) : Prop :=
  ∀ d st o, (∀ r, Constructs G H pol d p st o r → ∃ r', Constructs G H pol d p' st o r' ∧ SameCRes E r r') ∧
    (∀ r', Constructs G H pol d p' st o r' → ∃ r, Constructs G H pol d p st o r ∧ SameCRes E r r')

/-- ActAlike in both uses. -/
def WhollyAlike (E : Error → Error → Prop) (G : Rules ι β) (H : Handler ι β σ) (pol : Option (Pat ι β))
    (p p' : Pat ι β) : Prop :=
  ActAlike E G pol p p' ∧ BuildAlike E G H pol p p'

/-! On positions of the input only.  A context can be moved anywhere with
`set_offset`; what two patterns do outside the input or inside an item need not
matter. -/

/-- The two patterns return the same on every input, at every position of it. -/
def ActAlikeIn (E : Error → Error → Prop) (G : Rules ι β) (pol : Option (Pat ι β)) (p p' : Pat ι β) : Prop :=
  ∀ d o, Valid d o → (∀ r, Parses G pol d p o r → ∃ r', Parses G pol d p' o r' ∧ SameRes E r r') ∧
    (∀ r', Parses G pol d p' o r' → ∃ r, Parses G pol d p o r ∧ SameRes E r r')

/-- The same for constructing. -/
def BuildAlikeIn (E : Error → Error → Prop) (G : Rules ι β) (H : Handler ι β σ) (pol : Option (Pat ι β))
    (p p' : Pat ι β) : Prop :=
  ∀ d st o, Valid d o →
    (∀ r, Constructs G H pol d p st o r → ∃ r', Constructs G H pol d p' st o r' ∧ SameCRes E r r') ∧
    (∀ r', Constructs G H pol d p' st o r' → ∃ r, Constructs G H pol d p st o r ∧ SameCRes E r r')

/-- In both uses. -/
def WhollyAlikeIn (E : Error → Error → Prop) (G : Rules ι β) (H : Handler ι β σ) (pol : Option (Pat ι β))
    (p p' : Pat ι β) : Prop :=
  ActAlikeIn E G pol p p' ∧ BuildAlikeIn E G H pol p p'

/-- Local condition: a pattern that starts on a position of the input stays on
positions of it.  `Bounded` is the condition of C03; closures that construct
(`dyn_then_ctor`) must keep to positions too. -/
def Inside (G : Rules ι β) (pol : Option (Pat ι β)) (p : Pat ι β) : Prop :=
  Bounded G pol p ∧ match p with
    | .dthen _ f => ∀ d o v, Valid d o → match f d o v with
        | .ok _ o' => Valid d o'
        | .err _ o' => Valid d o'
        | .panic => True
    | _ => True

/-- So does what the context skips. -/
def InsidePol (G : Rules ι β) (pol : Option (Pat ι β)) : Prop :=
  ∀ q, pol = some q → All G (Inside G none) q

/-- `G'` has, handle by handle, a pattern that `S` relates to the one in `G`; the
same handles are empty. -/
def RuleByRule (S : Pat ι β → Pat ι β → Prop) (G G' : Rules ι β) : Prop :=
  ∀ i, (G i = none ∧ G' i = none) ∨ ∃ q q', G i = some q ∧ G' i = some q' ∧ S q q'

end Neure
