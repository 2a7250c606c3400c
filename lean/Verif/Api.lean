import Verif.Classes
import Verif.Ctor
/-!
# Shortcuts of the combinator interface: `src/ctor.rs:819-893`

The methods of `CtorOps` that are not a constructor of `Pat` but a fixed
composition of several.
-/

namespace Neure.Api

variable {ι β : Type} [Item ι]

/-- `p.skip_ws()`, `src/ctor.rs:843-849`: `Suffix::new(p, Many0::new(WhiteSpace, EmptyCond))`. -/
def skipWs (p : Pat Char β) : Pat Char β := .suf p (.many0 Unit.whitespace .empty)

/-- `p.skip_ascii_ws()`, `src/ctor.rs:852-858`. -/
def skipAsciiWs (p : Pat ι β) : Pat ι β := .suf p (.many0 Unit.asciiWhitespace .empty)

/-- `p.skip_ws_leading()`, `src/ctor.rs:878-884`:
`Prefix::new(p, Many0::new(WhiteSpace, EmptyCond))`. -/
def skipWsLeading (p : Pat Char β) : Pat Char β := .pre (.many0 Unit.whitespace .empty) p

/-- `p.skip_ascii_ws_leading()`, `src/ctor.rs:887-893`. -/
def skipAsciiWsLeading (p : Pat ι β) : Pat ι β := .pre (.many0 Unit.asciiWhitespace .empty) p

end Neure.Api
