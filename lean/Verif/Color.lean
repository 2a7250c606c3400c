import Verif.Ctor
import Verif.NumText
import Verif.Find
/-!
# Two benchmark programs: colours and `find`

`bench/nom_cap.rs` parses a colour `#2F14DF` with `nom` and with this library;
`bench/find.rs` looks for the first alphanumeric character with `str::find` and
with this library.  Both sides of each comparison are written out.
-/

namespace Neure

namespace Color

/-- `is_hex_digit`, `bench/nom_cap.rs:54-56` and `:85-87` (the two are the same). -/
def isHexDigit (c : Char) : Bool :=
  (decide ('0' ≤ c) && decide (c < ':')) || (decide ('A' ≤ c) && decide (c < 'G'))

/-- The values of the grammar: matched text, one `u8`, and `struct Color`
(`bench/nom_cap.rs:6-11`). -/
inductive CVal where
  | text (l : List Char)
  | byte (n : Int)
  | color (r g b : Int)
  deriving DecidableEq, Repr

/-- The handler of `ctx.ctor` on a string, `src/ctor/extract.rs:41-50`. -/
def textOf : Handler Char CVal Unit := fun d _ s st =>
  (match origSub d s.beg s.len with
    | .ok l => .ok (.text l)
    | .err e => .err e
    | .panic => .panic, st)

/-- `map::from_str_radix::<u8>(16)`, `bench/nom_cap.rs:91`, `src/map.rs:328-337`.  The
types rule out any argument but text. -/
def toByte : Val CVal → Out (Val CVal)
  | .base (.text l) =>
    match fromStr (fromStrRadix false 8 16) l with
    | .ok n => .ok (.base (.byte n))
    | .err e => .err e
    | .panic => .err (.uid 0)
  | _ => .err (.uid 0)

/-- `|(red, (green, blue))| Color { red, green, blue }`, `bench/nom_cap.rs:94`.  The
types rule out any other argument. -/
def toColor : Val CVal → Out (Val CVal)
  | .pair (.base (.byte r)) (.pair (.base (.byte g)) (.base (.byte b))) => .ok (.base (.color r g b))
  | _ => .err (.uid 0)

/-- `is_hex_digit.count::<2>().try_map(..)`, `bench/nom_cap.rs:90-91`; `count::<2>` is
`Between<2, 2>`, `src/neu.rs:727-732`. -/
def hex : Pat Char CVal := .map (.between 2 2 (.pred isHexDigit) .empty) toByte

/-- `parser`, `bench/nom_cap.rs:92-95`. -/
def parser : Pat Char CVal := .pre (.lit ['#']) (.map (.thn hex (.thn hex hex)) toColor)

/-- `from_hex`, `bench/nom_cap.rs:50-52`. -/
def fromHex (l : List Char) : Option Int := fromStrRadix false 8 16 l

/-- nom's `take_while_m_n(2, 2, f)`: the first two characters, if both are in the
class (`nom`'s documentation; with `m = n` it takes exactly that many). -/
def takeWhile22 (f : Char → Bool) : List Char → Option (List Char × List Char)
  | a :: b :: y => if f a && f b then some ([a, b], y) else none
  | _ => none

/-- `hex_primary`, `bench/nom_cap.rs:58-60`; `map_res` fails where `from_hex` fails. -/
def hexPrimary (x : List Char) : Option (Int × List Char) :=
  match takeWhile22 isHexDigit x with
  | none => none
  | some (t, y) =>
    match fromHex t with
    | none => none
    | some n => some (n, y)

/-- nom's `tag("#")`. -/
def tagHash : List Char → Option (List Char)
  | '#' :: y => some y
  | _ => none

/-- `hex_color`, `bench/nom_cap.rs:62-67`: the colour and the remaining input. -/
def nomColor (x : List Char) : Option ((Int × Int × Int) × List Char) := do
  let x ← tagHash x
  let (r, x) ← hexPrimary x
  let (g, x) ← hexPrimary x
  let (b, x) ← hexPrimary x
  pure ((r, g, b), x)

end Color

namespace FindBench

/-- `str::find` with a closure, `bench/find.rs:28-30`: the byte index of the first
character in the class. -/
def strFind (f : Char → Bool) : List Char → Option Nat
  | [] => none
  | c :: l => if f c then some 0 else (strFind f l).map (· + Item.size c)

end FindBench

end Neure
