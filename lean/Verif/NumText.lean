import Verif.Classes
import Verif.Mapper
import Verif.Ctor
/-!
# Numbers from text: `map::from_str`, `map::from_str_radix`

`src/map.rs:143-184, 259-346`.  Both mappers hand the text to the standard
library's `from_str_radix` of the integer type (`from_str` is radix 10) and turn
its error into `Error::FromStr`.  The standard library's function is written out
below; that it is the standard library's is part of the trusted base.
-/

namespace Neure

/-- One step of the loop of `from_str_radix`: the digit's value (invalid digit:
`none`), `checked_mul` by the radix, then `checked_add` (`checked_sub` for a
negative number) of the value, within `lo..=hi`.  (When the text is too short to
overflow the standard library leaves the checks out.) -/
def addDigit (radix : Nat) (lo hi : Int) (neg : Bool) (acc : Int) (c : Char) : Option Int :=
  match Unit.toDigit radix c.toNat with
  | none => none
  | some v =>
    let x := acc * radix
    if lo ≤ x ∧ x ≤ hi then
      let y := if neg then x - v else x + v
      if lo ≤ y ∧ y ≤ hi then some y else none
    else none

/-- The loop over the digits. -/
def addDigits (radix : Nat) (lo hi : Int) (neg : Bool) : Int → List Char → Option Int
  | acc, [] => some acc
  | acc, c :: l => (addDigit radix lo hi neg acc c).bind fun x => addDigits radix lo hi neg x l

/-- Smallest value of an integer type. -/
def intMin (signed : Bool) (bits : Nat) : Int := if signed then - 2 ^ (bits - 1) else 0

/-- Largest value of an integer type. -/
def intMax (signed : Bool) (bits : Nat) : Int := if signed then 2 ^ (bits - 1) - 1 else 2 ^ bits - 1

/-- `<int>::from_str_radix(src, radix)` of the standard library, called on
`src/map.rs:271-273` and, through `str::parse`, on `:173`. -/
def fromStrRadix (signed : Bool) (bits radix : Nat) (l : List Char) : Option Int :=
  let go := fun neg l => addDigits radix (intMin signed bits) (intMax signed bits) neg 0 l
  match l with
  | [] => none
  | '+' :: [] => none
  | '-' :: [] => none
  | '+' :: rest => go false rest
  | '-' :: rest => if signed then go true rest else go false l
  | _ => go false l

/-- Values of a grammar of numbers: matched text, or a number. -/
inductive NumVal where
  | text (l : List Char)
  | num (n : Int)
  deriving DecidableEq, Repr

/-- The handler of `ctx.ctor` on a string, `src/ctor/extract.rs:41-50`. -/
def textH : Handler Char NumVal Unit := fun d _ s st =>
  (match origSub d s.beg s.len with
    | .ok l => .ok (.text l)
    | .err e => .err e
    | .panic => .panic, st)

/-- `from_str_radix::<T>(radix)` (`src/map.rs:328-337`) as an argument of
`try_map`; with radix 10 also `from_str::<T>()` (`:165-175`).  The types rule out
any argument but text. -/
def numMapper (signed : Bool) (bits radix : Nat) : Val NumVal → Out (Val NumVal)
  | .base (.text l) =>
    match fromStr (fromStrRadix signed bits radix) l with
    | .ok n => .ok (.base (.num n))
    | .err e => .err e
    | .panic => .panic
  | _ => .panic

/-- `digit(radix).many1().try_map(from_str_radix::<T>(radix))`: `many1`
`src/neu.rs:770-772`, `try_map` `src/ctor.rs:370-372`. -/
def numPat (signed : Bool) (bits radix : Nat) : Pat Char NumVal :=
  .map (.many1 (Unit.digit radix) .empty) (numMapper signed bits radix)

/-- `['+', '-'].opt().then(digit(radix).many1()).pat().try_map(from_str_radix::<T>(radix))`:
the usual pattern for a signed number. -/
def signedNumPat (bits radix : Nat) : Pat Char NumVal :=
  .map (.pat (.thn (.optU (.mem ['+', '-']) .empty) (.many1 (Unit.digit radix) .empty)))
    (numMapper true bits radix)

end Neure
