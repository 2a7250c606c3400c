import Verif.Api
import Verif.Classes
/-!
# The pair with an optional second part of the documentation

`src/ctor/then.rs:305-313`, the example of `if_then`: `(abc)` or `(abc, cde)`.
-/

namespace Neure.Tuple

/-- `val`, `src/ctor/then.rs:306`: `neu::ascii_alphabetic().many1()`. -/
def val : Pat Char (List Char) := .many1 Unit.asciiAlphabetic .empty

/-- `tuple`, `src/ctor/then.rs:307`: `val.if_then(",".skip_ws(), val).enclose("(", ")")`. -/
def tuple : Pat Char (List Char) :=
  .enclose (.lit ['(']) (.ifThen val (Api.skipWs (.lit [','])) val) (.lit [')'])

end Neure.Tuple
