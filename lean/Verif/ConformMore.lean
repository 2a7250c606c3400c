import Verif.ConformDoc
/-!
# Conformance: the remaining documentation examples, run in the model

As in `Verif/ConformDoc.lean`.  Left out are the examples whose units consult Unicode tables on text
that is not ASCII (`src/neu/units.rs:97-136`, `:501-564`), and threads: a pattern shared between threads is
run once per thread.
-/

namespace Neure.Conform

open Neure.Demo Neure.Api

/-- `'a'..'g'`. -/
def hex6 : Neu Char := .range (RangeExpr.range 97 103).toCRange

/-! ## `src/ctx.rs`, `src/neu.rs`, `src/regex.rs` -/

-- src/ctx.rs:124-135
example : mat (digits 10) "98" = some (.ok ⟨0, 2⟩ 2) := by decide +kernel
-- src/ctx.rs:407-421
example : value (ctor (num true 32 10 (digits 10)) "2026") = some (n 2026) := by decide +kernel
-- src/neu.rs:283-295
example : matB (.times (RangeExpr.range 2 6).toCRange (.mem (by_ "acfe")) .empty) (by_ "aaffeeeaccc") =
    some (.ok ⟨0, 5⟩ 5) := by decide +kernel
example : matB (.times (RangeExpr.range 2 6).toCRange (.mem (by_ "acfe")) .empty) (by_ "acdde") =
    some (.ok ⟨0, 2⟩ 2) := by decide +kernel
-- src/regex.rs:282-300
example : mat (.optU (.item '+') .empty) "+2077" = some (.ok ⟨0, 1⟩ 1) := by decide +kernel
example : mat (.many1 (rng '0' '9') .empty) "+2077" 1 = some (.ok ⟨1, 4⟩ 5) := by decide +kernel
example : mat (.optU (.item '+') .empty) "2077" = some (.ok ⟨0, 0⟩ 0) := by decide +kernel
example : mat (.many1 (rng '0' '9') .empty) "2077" = some (.ok ⟨0, 4⟩ 4) := by decide +kernel
-- src/regex.rs:344-359
example : mat (.many1 (rng '0' '9') .empty) "2048mb" = some (.ok ⟨0, 4⟩ 4) := by decide +kernel
example : failed (mat (.many1 (rng '0' '9') .empty) "rust2021") = true := by decide +kernel
-- src/regex.rs:622-633
example : matB (.choice .slice (alts [litB "rust", litB "jawa", litB "golang"])) (by_ "rust is so awesome!") =
    some (.ok ⟨0, 4⟩ 4) := by decide +kernel
-- src/regex.rs:642-653
example : spanOf (matB (.ltm .slice (alts [litB "g", litB "go", litB "golang"])) (by_ "go is so awesome!")) =
    some ⟨0, 2⟩ := by decide +kernel

/-- `(pattern, value)` alternatives; the values are numbered. -/
def pairs {ι β : Type} (v : Nat → Val β) (l : List (Pat ι β)) : List (Pat ι β × Option (Val β)) :=
  l.zipIdx.map fun p => (p.1, some (v p.2))

-- src/regex.rs:661-682
example : matB (.choice .pairArray (pairs (fun _ => .base ()) [litB "rust", litB "jawa", litB "golang"]))
    (by_ "golang is so awesome!") = some (.ok ⟨0, 6⟩ 6) := by decide +kernel
-- src/regex.rs:690-709
example : spanOf (matB (.ltm .pairArray (pairs (fun _ => .base ()) [litB "http", litB "https"]))
    (by_ "https://docs.example.dev")) = some ⟨0, 5⟩ := by decide +kernel
-- src/regex.rs:717-739
example : matB (.choice .pairSlice (pairs (fun _ => .base ()) [litB "rust", litB "jawa", litB "golang"]))
    (by_ "jawa is so awesome!") = some (.ok ⟨0, 4⟩ 4) := by decide +kernel
-- src/regex.rs:748-768
example : spanOf (matB (.ltm .pairSlice (pairs (fun _ => .base ()) [litB "http", litB "https"]))
    (by_ "https://docs.example.dev")) = some ⟨0, 5⟩ := by decide +kernel

/-! ## `src/ctor` -/

/-- `char::is_numeric` of std, on ASCII. -/
def isNumeric (c : Char) : Bool := c.isDigit

/-- The function of `src/ctor/adapter.rs:166-201`, as a pattern (it matches, and the handler is invoked on the
match). -/
def findNumeric : Pat Char (D Char) :=
  .native fun d o => match origAt d o with
    | .panic => .panic
    | .err e => .err e o
    | .ok l => match (indices 0 l).find? fun p => isNumeric p.2 with
      | none => .err (.uid 1) o
      | some (pos, c) => .ok ⟨o + pos, Item.size c⟩ (o + pos + Item.size c)

-- src/ctor/adapter.rs:166-201
example : value (ctor (.thn findNumeric findNumeric) "fo1ba5") = some (.pair (t "1") (t "5")) := by decide +kernel
example : ctor (.thn findNumeric findNumeric) "foobar" = some (.err (.uid 1) () 0) := by decide +kernel
-- src/ctor/adapter.rs:472-489
example : value (ctor (fst (.sepOnce (.sepOnce (.many1 Unit.asciiAlphabetic .empty) (lit "_") (count 10 Unit.asciiDigit))
    (lit ".") (lit "txt"))) "video_1135897722.txt") = some (.pair (t "video") (t "1135897722")) := by decide +kernel
-- src/ctor/adapter.rs:511-534
example : value (ctor (.sepOnce (.between 3 usizeMax Unit.asciiDigit .empty) (lit "/")
    (.between 3 usizeMax Unit.asciiDigit .empty)) "999/1000") = some (.pair (t "999") (t "1000")) := by decide +kernel
example : isErr (ctor (.sepOnce (.between 3 usizeMax Unit.asciiDigit .empty) (lit "/")
    (.between 3 usizeMax Unit.asciiDigit .empty)) "99A/100") = true := by decide +kernel
-- src/ctor/map.rs:88-110
example : value (ctor (num true 32 10 (count 3 (Unit.digit 10))) "777") = some (n 777) := by decide +kernel
example : value (ctorSpan (count 3 (Unit.digit 10)) "777") = some (sp 0 3) := by decide +kernel
-- src/ctor/pat.rs:49-60
example : value (ctor (.sepOnce (lit "abc") (lit ".") (lit "com")) "abc.com") =
    some (.pair (t "abc") (t "com")) := by decide +kernel
example : value (ctor (.pat (.sepOnce (lit "abc") (lit ".") (lit "com"))) "abc.com") = some (t "abc.com") := by
  decide +kernel
-- src/ctor/slice.rs:77-88
example : value (ctor (.choice .slice (alts [lit "abc", lit "def", lit "ghi"])) "ghi") = some (t "ghi") := by
  decide +kernel
-- src/ctor/vec.rs:225-253
example : value (ctor (.choice .pairVector (pairs (fun i => n i) [lit "for", lit "while", lit "repeat"])) "while") =
    some (.pair (t "while") (n 1)) := by decide +kernel
example : value (ctor (.choice .pairVector (pairs (fun i => n i) [lit "for", lit "while", lit "repeat"])) "repeat") =
    some (.pair (t "repeat") (n 2)) := by decide +kernel

/-! ## `src/neu` -/

-- src/neu/bool.rs:114-123
example : failed (mat (count 6 .never) "abc%$#&") = true := by decide +kernel
-- src/neu/once.rs:236-247
example : mat (.many1 hex6 .empty) "aabbccgg" = some (.ok ⟨0, 6⟩ 6) := by decide +kernel
-- src/neu/op_and.rs:165-180
example : matB (.times (RangeExpr.rangeFrom 6).toCRange (.and (.pred fun a => 96 < a) (.pred fun a => a < 123)) .empty)
    (by_ "abcedfgABCEE") = some (.ok ⟨0, 7⟩ 7) := by decide +kernel
-- src/neu/op_not.rs:121-133
example : matB (.times (RangeExpr.rangeFrom 6).toCRange (.not Unit.asciiUppercase) .empty)
    (by_ "abcedfgABCEE") = some (.ok ⟨0, 7⟩ 7) := by decide +kernel
-- src/neu/op_or.rs:164-175
example : value (ctorB (.pre (litB "0x") (count 4 (.or Unit.asciiHexdigit (.or (.item 103) (.item 71))))) (by_ "0xcfag")) =
    some (tB "cfag") := by decide +kernel
-- src/neu/opt.rs:52-63
example : mat (.optU hex6 .empty) "aabbccgg" = some (.ok ⟨0, 1⟩ 1) := by decide +kernel
-- src/neu/opt.rs:248-259, src/neu/times.rs:73-84
example : mat (.many0 hex6 .empty) "aabbccgg" = some (.ok ⟨0, 6⟩ 6) := by decide +kernel
-- src/neu/times.rs:58-69
example : mat (.between 1 6 hex6 .empty) "aabbccgg" = some (.ok ⟨0, 6⟩ 6) := by decide +kernel
-- src/neu/times.rs:88-99
example : mat (.between 0 6 hex6 .empty) "aabbccgg" = some (.ok ⟨0, 6⟩ 6) := by decide +kernel
-- src/neu/times.rs:103-114
example : mat (.between 2 usizeMax hex6 .empty) "aabbccgg" = some (.ok ⟨0, 6⟩ 6) := by decide +kernel
-- src/neu/times.rs:298-309
example : mat (.times (RangeExpr.range 1 7).toCRange hex6 .empty) "aabbccgg" = some (.ok ⟨0, 6⟩ 6) := by decide +kernel

/-- The shape of the examples of `src/neu/units.rs`: two items match, the next two do not. -/
def unitDoc (u : Neu Char) (s : String) : Bool :=
  decide (mat (count 2 u) s = some (.ok ⟨0, 2⟩ 2)) && failed (mat (count 2 u) s 2)

-- src/neu/units.rs:173-390, :476-489, :625-638
example : unitDoc Unit.asciiAlphabetic "ab%e" = true := by decide +kernel
example : unitDoc Unit.asciiAlphanumeric "8a%e" = true := by decide +kernel
example : unitDoc Unit.asciiControl "\r\n%e" = true := by decide +kernel
example : unitDoc Unit.asciiDigit "90fe" = true := by decide +kernel
example : unitDoc Unit.asciiGraphic "a%\r\n" = true := by decide +kernel
example : unitDoc Unit.asciiHexdigit "9fg0" = true := by decide +kernel
example : unitDoc Unit.asciiLowercase "efAE" = true := by decide +kernel
example : unitDoc Unit.asciiPunctuation "%%\nE" = true := by decide +kernel
example : unitDoc Unit.asciiUppercase "EFef" = true := by decide +kernel
example : unitDoc (Unit.digit 10) "54aa" = true := by decide +kernel
example : unitDoc Unit.wild "aa\r\n" = true := by decide +kernel
-- src/neu/units.rs:429-442 (the text of the example begins with two C1 controls)
example : mat (count 2 Unit.control) "\u009c\u009cef" = some (.ok ⟨0, 4⟩ 4) := by decide +kernel
example : failed (mat (count 2 Unit.control) "\u009c\u009cef" 4) = true := by decide +kernel

/-! ## `src/regex` -/

/-- The closure `|ctx| ctx.try_mat(&p)`. -/
def closure (p : Pat Char (D Char)) : Pat Char (D Char) :=
  .native fun d o => match tryMat G0 100 none d p o with
    | some r => r
    | none => .panic

-- src/regex/adapter.rs:111-122
example : value (ctor (closure (lit "who")) "who are you?") = some (t "who") := by decide +kernel
-- src/regex/adapter.rs:138-209
example : value (ctor (.thn (closure (lit "@")) (closure (lit "@"))) "@@") = some (.pair (t "@") (t "@")) := by
  decide +kernel
-- src/regex/adapter.rs:224-241, :325-348, :394-417
example : value (ctor (lit "where") "where are you from?") = some (t "where") := by decide +kernel
-- src/regex/adapter.rs:257-273: a string has both `Regex` and `Ctor`, and the adapter is a regex, so what is
-- constructed is the text of the whole match
example : value (ctor (.pat (.pre (lit "where") (lit " are you from?"))) "where are you from?") =
    some (t "where are you from?") := by decide +kernel
-- src/regex/adapter.rs:288-303, :361-372, :430-441
example : value (ctor (.sepOnce (closure (lit "rust")) (lit " ") (closure (lit "rust"))) "rust rust 2024?") =
    some (.pair (t "rust") (t "rust")) := by decide +kernel
-- src/regex/anchor.rs:93-109
example : mat .start "rust2023" = some (.ok ⟨0, 0⟩ 0) := by decide +kernel
example : mat (lit "rust") "rust2023" = some (.ok ⟨0, 4⟩ 4) := by decide +kernel
example : mat (count 4 (Unit.digit 10)) "rust2023" 4 = some (.ok ⟨4, 4⟩ 8) := by decide +kernel
-- src/regex/anchor.rs:135-146
example : mat (.consume 8) "aabbccgg" = some (.ok ⟨0, 8⟩ 8) := by decide +kernel
example : mat .anchorEnd "aabbccgg" 8 = some (.ok ⟨8, 0⟩ 8) := by decide +kernel
-- src/regex/anchor.rs:194-210
example : mat .anchorEnd "rust2023" 8 = some (.ok ⟨8, 0⟩ 8) := by decide +kernel
-- src/regex/assert.rs:134-144
example : mat (.assert (lit "]]]") false) "[123,456,789]" = some (.ok ⟨0, 0⟩ 0) := by decide +kernel
-- src/regex/assert.rs:154-164
example : matB (.assert (litB "rust") true) (by_ "rust is so awesome!") = some (.ok ⟨0, 0⟩ 0) := by decide +kernel
-- src/regex/consume.rs:95-105
example : mat (.consume 6) "aabbccgg" = some (.ok ⟨0, 6⟩ 6) := by decide +kernel
-- src/regex/consume.rs:133-143
example : matB .consumeAll (by_ "rust is so awesome!") = some (.ok ⟨0, 19⟩ 19) := by decide +kernel
-- src/regex/consume.rs:188-198
example : mat .consumeAll "aabbccgg" = some (.ok ⟨0, 8⟩ 8) := by decide +kernel
-- src/regex/empty.rs:35-45, src/regex/fail.rs:35-45
example : matB .empty (by_ "rust is so awesome!") = some (.ok ⟨0, 0⟩ 0) := by decide +kernel
-- src/regex/empty.rs:85-96
example : mat .empty "aabbccgg" = some (.ok ⟨0, 0⟩ 0) := by decide +kernel
-- src/regex/fail.rs:85-96
example : failed (mat .fail "aabbccgg") = true := by decide +kernel
-- src/regex/literal.rs:46-56
example : mat (lit "hello") "hello world" = some (.ok ⟨0, 5⟩ 5) := by decide +kernel
-- src/regex/literal.rs:197-207
example : matB (.lit [0xff, 0xff]) [0xff, 0xff, 0x12] = some (.ok ⟨0, 2⟩ 2) := by decide +kernel

end Neure.Conform
