import Verif.NumText
import Verif.Api
/-!
# The array of numbers of the documentation

`src/ctor.rs:384-391`, the example of `pat`: numbers separated by commas, between brackets.
-/

namespace Neure.NumArray

/-- `|v: &str| v.parse::<i64>().unwrap()`, `src/ctor.rs:385`: a text that `parse` refuses is a
panic. -/
def unwrapped : Val NumVal → Out (Val NumVal)
  | .base (.text l) =>
    match fromStrRadix true 64 10 l with
    | some n => .ok (.base (.num n))
    | none => .panic
  | _ => .panic

/-- `['0' - '9']` of `regex!`, `src/ctor.rs:384`. -/
def figure : Neu Char := .range ⟨.incl '0'.toNat, .incl '9'.toNat⟩

/-- `digit`, `src/ctor.rs:384-385`; `f` is what is applied to the text. -/
def number (f : Val NumVal → Out (Val NumVal)) : Pat Char NumVal := .map (.many1 figure .empty) f

/-- `",".skip_ws()`, `src/ctor.rs:386`. -/
def comma : Pat Char NumVal := Api.skipWs (.lit [','])

/-- `digits.enclose("[", "]")` with `digits = digit.sep(",".skip_ws())`, `src/ctor.rs:386-387`. -/
def arrayOf (f : Val NumVal → Out (Val NumVal)) : Pat Char NumVal :=
  .enclose (.lit ['[']) (.sep (number f) comma true 1) (.lit [']'])

/-- The array of the documentation. -/
def array : Pat Char NumVal := arrayOf unwrapped

/-- The same with `try_map(map::from_str::<i64>())` in place of `map(… unwrap())`, as in the example of
`opt`, `src/ctor.rs:406-409`. -/
def tryArray : Pat Char NumVal := arrayOf (numMapper true 64 10)

end Neure.NumArray
