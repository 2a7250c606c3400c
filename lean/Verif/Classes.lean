import Verif.Unit
/-!
# Character classes: `src/neu/units.rs`

Every unit of this file is a struct without state whose `is_match` calls a
predicate of the standard library (macros `src/neu/units.rs:3-29` for `char` only,
`:31-84` for `char` and `u8`), with the default `min_length`.  The predicates are
written out here as the standard library defines them, on the code of the item
(the value of a `u8`, the scalar value of a `char`); that they are the standard
library's is part of the trusted base.  `alphabetic`, `alphanumeric`, `lowercase`,
`uppercase` and `numeric` (`:90-139, 494-567`) consult Unicode tables and are
represented by an arbitrary predicate (`Neu.pred`).
-/

namespace Neure.Unit

variable {ι : Type} [Item ι]

/-- `a..=b` on codes, as in `matches!(*self, 'a'..='b')`. -/
def within (a b k : Nat) : Bool := decide (a ≤ k) && decide (k ≤ b)

/-- A predicate on codes as a unit: `is_match` of `src/neu/units.rs:22-27, 72-84`. -/
def byCode (f : Nat → Bool) : Neu ι := .pred fun x => f (Item.key x)

/-- `is_ascii_digit`: `'0'..='9'`. -/
def codeDigit (k : Nat) : Bool := within 48 57 k
/-- `is_ascii_uppercase`: `'A'..='Z'`. -/
def codeUpper (k : Nat) : Bool := within 65 90 k
/-- `is_ascii_lowercase`: `'a'..='z'`. -/
def codeLower (k : Nat) : Bool := within 97 122 k

/-- `ascii()`, `src/neu/units.rs:141-164`. -/
def ascii : Neu ι := byCode fun k => decide (k < 128)

/-- `ascii_alphabetic()`, `src/neu/units.rs:166-189`. -/
def asciiAlphabetic : Neu ι := byCode fun k => codeUpper k || codeLower k

/-- `ascii_alphanumeric()`, `src/neu/units.rs:191-218`. -/
def asciiAlphanumeric : Neu ι := byCode fun k => codeDigit k || codeUpper k || codeLower k

/-- `ascii_control()`, `src/neu/units.rs:220-243`. -/
def asciiControl : Neu ι := byCode fun k => within 0 31 k || decide (k = 127)

/-- `ascii_digit()`, `src/neu/units.rs:245-268`. -/
def asciiDigit : Neu ι := byCode codeDigit

/-- `ascii_graphic()`, `src/neu/units.rs:270-293`. -/
def asciiGraphic : Neu ι := byCode fun k => within 33 126 k

/-- `ascii_hexdigit()`, `src/neu/units.rs:295-318`. -/
def asciiHexdigit : Neu ι := byCode fun k => codeDigit k || within 65 70 k || within 97 102 k

/-- `ascii_lowercase()`, `src/neu/units.rs:320-343`. -/
def asciiLowercase : Neu ι := byCode codeLower

/-- `ascii_punctuation()`, `src/neu/units.rs:345-368`. -/
def asciiPunctuation : Neu ι :=
  byCode fun k => within 33 47 k || within 58 64 k || within 91 96 k || within 123 126 k

/-- `ascii_uppercase()`, `src/neu/units.rs:370-393`. -/
def asciiUppercase : Neu ι := byCode codeUpper

/-- `ascii_whitespace()`, `src/neu/units.rs:395-420`: tab, line feed, form feed,
carriage return, space. -/
def asciiWhitespace : Neu ι :=
  byCode fun k => decide (k = 9) || decide (k = 10) || decide (k = 12) || decide (k = 13) || decide (k = 32)

/-- `control()`, `src/neu/units.rs:422-445`: the general category `Cc`. -/
def control : Neu Char := byCode fun k => within 0 31 k || within 127 159 k

/-- `whitespace()`, `src/neu/units.rs:569-594`: the Unicode property
`White_Space`. -/
def whitespace : Neu Char := byCode fun k =>
  within 9 13 k || decide (k = 32) || decide (k = 0x85) || decide (k = 0xA0) || decide (k = 0x1680) ||
  within 0x2000 0x200A k || decide (k = 0x2028) || decide (k = 0x2029) || decide (k = 0x202F) ||
  decide (k = 0x205F) || decide (k = 0x3000)

/-- `char::to_digit` for `2 ≤ radix ≤ 36` (other radixes panic, in std, when an
item is tested; not represented). -/
def toDigit (radix k : Nat) : Option Nat :=
  let v := if codeDigit k then some (k - 48) else if codeLower k then some (k - 87)
    else if codeUpper k then some (k - 55) else none
  v.bind fun n => if n < radix then some n else none

/-- `digit(radix)`, `src/neu/units.rs:447-492`: `char::is_digit`. -/
def digit (radix : Nat) : Neu Char := byCode fun k => (toDigit radix k).isSome

/-- `wild()`, `src/neu/units.rs:596-641`. -/
def wild : Neu Char := .pred fun c => decide (c ≠ '\n')

/-- `word()`, `src/neu/units.rs:643-728`: `contain_ch` (`:676-682`) and
`contain_u8` (`:684-690`). -/
def word : Neu ι := byCode fun k => codeLower k || codeUpper k || codeDigit k || decide (k = 95)

end Neure.Unit
