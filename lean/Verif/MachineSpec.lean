import Verif.Machine
import Verif.Spec
/-!
# Vocabulary for C87: when the arithmetic of a run fits into `usize`
-/

namespace Neure

set_option linter.unusedSectionVars false

variable {ι β : Type} [Item ι]

/-- `isize::MAX`: no string or slice of a Rust program has more bytes. -/
def isizeMax : Nat := 2 ^ 63 - 1

/-- The result of an attempt at `o` lies between `o` and the end of the text. -/
def Within (d : List ι) (o : Nat) : Res Span → Prop
  | .ok s o' => o ≤ s.beg ∧ s.beg + s.len ≤ blen d ∧ o ≤ o' ∧ o' ≤ blen d
  | .err _ o' => o ≤ o' ∧ o' ≤ blen d
  | .panic => True

/-- The numbers written in the pattern fit: the lengths computed from them in advance are
below `2^64`, so are the bounds of repetitions; user closures used as patterns stay within
the text. -/
def FitsWord : Pat ι β → Prop
  | .native f => ∀ d o, o ≤ blen d → Within d o (f d o)
  | .between m _ u _ => m * u.minLength < 2 ^ 64
  | .times r u _ => r.needed u.minLength < 2 ^ 64
  | .thenU u v _ => u.minLength + v.minLength < 2 ^ 64
  | .rep _ r => match r.hi with
    | .incl n | .excl n => n < 2 ^ 64
    | .unb => True
  | .rep2 _ _ n | .sep2 _ _ _ _ n => n < 2 ^ 64 - 1
  | .build _ f => ∀ d o s, o ≤ blen d → match f d o s with
    | .ok _ o' | .err _ o' => o ≤ o' ∧ o' ≤ blen d
    | .panic => True
  | .dthen _ f => ∀ d o v, o ≤ blen d → match f d o v with
    | .ok _ o' | .err _ o' => o ≤ o' ∧ o' ≤ blen d
    | .panic => True
  | _ => True

/-- The same for a policy. -/
def FitsWordPol (G : Rules ι β) (pol : Option (Pat ι β)) : Prop := ∀ q, pol = some q → All G FitsWord q

/-- The closures in the pattern do not panic, and it has no `dthen` (whose matching mode is
`unimplemented!`). -/
def Calm : Pat ι β → Prop
  | .native f => ∀ d o, f d o ≠ .panic
  | .build _ f => ∀ d o s, f d o s ≠ .panic
  | .dthen _ _ => False
  | .branch t _ _ => ∀ d o, t d o ≠ .panic
  | .once _ c | .many1 _ c | .optU _ c | .many0 _ c | .between _ _ _ c | .times _ _ c
  | .thenU _ _ c => c.NoPanic
  | _ => True

/-- The same for a policy. -/
def CalmPol (G : Rules ι β) (pol : Option (Pat ι β)) : Prop := ∀ q, pol = some q → All G Calm q

end Neure
