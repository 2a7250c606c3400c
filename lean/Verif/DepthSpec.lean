import Verif.Sub
import Verif.Ctor
/-!
# Nested calls: the evaluators with a bounded call stack

`try_parse`, `construct` and the closures between them are ordinary recursive Rust
functions; nothing in `/repo/src` limits how deeply they nest.  `parse` and `con`
use one fuel for loop rounds and for nested calls alike.  Here the two are
separate: `m` bounds the rounds of each loop, `k` bounds how many `try_parse` (or
`construct`) calls are active at the same time.  `RunsIn G k …` says that a match
finishes with a stack of at most `k` such calls, however many rounds its loops take.
-/

namespace Neure

variable {ι β σ : Type} [Item ι]

/-- `p.try_parse(ctx)` (`src/regex/*.rs`, `src/ctor/*.rs`, the functions modelled by
`step`) with at most `m` rounds per loop and at most `k` nested calls. -/
def parseAt (G : Rules ι β) (m : Nat) :
    Nat → Option (Pat ι β) → List ι → Pat ι β → Nat → Option (Res Span)
  | 0 => fun _ _ _ _ => none
  | k + 1 => fun pol d p o =>
    step G m (matWith (parseAt G m k) pol) (parseAt G m k pol d) d p o

/-- `ctx.try_mat(&p)` (`src/ctx/regex.rs:443-448`, `src/ctx/policy.rs:154-160`) finishes with `r`,
never nesting more than `k` calls of `try_parse`. -/
def RunsIn (G : Rules ι β) (k : Nat) (pol : Option (Pat ι β)) (d : List ι) (p : Pat ι β) (o : Nat)
    (r : Res Span) : Prop := ∃ m, matWith (parseAt G m k) pol d p o = some r

/-- `p.construct(ctx, handler)` (`src/ctor/*.rs`, the functions modelled by `conStep`)
with at most `m` rounds per loop and at most `k` nested calls.  A leaf's `construct`
calls `ctx.try_mat(self)`, one call further down. -/
def conAt (G : Rules ι β) (H : Handler ι β σ) (m : Nat) :
    Nat → Option (Pat ι β) → List ι → Pat ι β → σ → Nat → Option (CRes σ (Val β))
  | 0 => fun _ _ _ _ _ => none
  | k + 1 => fun pol d p st o =>
    conStep G H m (matWith (parseAt G m k) pol d) (matWith (parseAt G m k) pol d p o)
      (conAt G H m k pol d) d p st o

/-- `ctx.ctor_handler(&p, handler)` finishes with `r`, never nesting more than `k`
calls of `construct` and `try_parse`. -/
def ConstructsIn (G : Rules ι β) (H : Handler ι β σ) (k : Nat) (pol : Option (Pat ι β))
    (d : List ι) (p : Pat ι β) (st : σ) (o : Nat) (r : CRes σ (Val β)) : Prop :=
  ∃ m, conAt G H m k pol d p st o = some r

/-- The pattern is at most `k` levels high: no chain of components (through rules and
through what closures return) is longer than `k`.  No recursive pattern is. -/
def Below (G : Rules ι β) : Nat → Pat ι β → Prop
  | 0, _ => False
  | k + 1, p => ∀ q, Child G q p → Below G k q

end Neure
