import Verif.Conform
/-!
# Conformance: the unit tests of `src/lib.rs`, run in the model

All of `src/lib.rs:82-679`: the patterns the macro `regex!` expands to.  Like `Conform.lean` these are tests
of the model, not proofs of a property.  The tests that capture into a `VecStorer` are run as matches: what
`try_cap` stores is the span of the match (C36).
-/

namespace Neure.Conform

/-- A test: the tokens given to `regex!`, the text, and the length of the match (`none`: an error). -/
structure LibTest where
  re : List Tok
  text : String
  len : Option Nat

/-- `test_t!`/`test_st!`, `src/lib.rs:104-138`. -/
def LibTest.passes (t : LibTest) : Bool :=
  match Macro.regex t.re with
  | none => false
  | some p => match mat p t.text, t.len with
    | some (.ok s o), some n => s = ⟨0, n⟩ && o = n
    | some (.err _ _), none => true
    | _, _ => false

/-! ## `test_other`, `src/lib.rs:142-202` -/

example : [
    (⟨[.punct '.'], "abedf", some 1⟩ : LibTest),
    (⟨[.punct '.', .punct '?'], "abedf", some 1⟩ : LibTest),
    (⟨[.punct '.', .punct '?'], "\nabedf", some 0⟩ : LibTest),
    (⟨[.punct '.', .punct '*'], "abedf", some 5⟩ : LibTest),
    (⟨[.punct '.', .punct '*'], "\nabedf", some 0⟩ : LibTest),
    (⟨[.punct '.', .punct '+'], "abedf", some 5⟩ : LibTest),
    (⟨[.punct '.', .punct '+'], "\nabedf", none⟩ : LibTest),
    (⟨[.punct '.', .brace [.num 2]], "abedf", some 2⟩ : LibTest),
    (⟨[.punct '.', .brace [.num 3]], "ab\nedf", none⟩ : LibTest),
    (⟨[.punct '.', .brace [.num 2, .punct ',']], "abedf", some 5⟩ : LibTest),
    (⟨[.punct '.', .brace [.num 4, .punct ',', .num 6]], "abedf", some 5⟩ : LibTest),
    (⟨[.punct '.', .brace [.num 4, .punct ',', .num 6]], "abe\ndf", none⟩ : LibTest),
    (⟨[.punct '^'], "c\nabedf", some 1⟩ : LibTest)
  ].all LibTest.passes = true := by decide +kernel

/-! ## `test_range_negative`, `src/lib.rs:206-355` -/

example : [
    (⟨[.bracket [.punct '^', .ident 'a', .punct '-', .ident 'z']], "Raefc", some 1⟩ : LibTest),
    (⟨[.bracket [.punct '^', .ident 'a', .punct '-', .ident 'z', .ident 'A', .punct '-', .ident 'Z']], "你aefc", some 3⟩ : LibTest),
    (⟨[.bracket [.punct '^', .ident 'a', .punct '-', .ident 'z'], .punct '?'], "aefc", some 0⟩ : LibTest),
    (⟨[.bracket [.punct '^', .ident 'a', .punct '-', .ident 'z'], .punct '?'], "AEUF", some 1⟩ : LibTest),
    (⟨[.bracket [.punct '^', .ident 'a', .punct '-', .ident 'z', .ident 'A', .punct '-', .ident 'Z']], "&AEUF", some 1⟩ : LibTest),
    (⟨[.bracket [.punct '^', .ident 'a', .punct '-', .ident 'z'], .punct '*'], "AEUF", some 4⟩ : LibTest),
    (⟨[.bracket [.punct '^', .ident 'a', .punct '-', .ident 'z'], .punct '*'], "aefc", some 0⟩ : LibTest),
    (⟨[.bracket [.punct '^', .ident 'a', .punct '-', .ident 'z', .ident 'A', .punct '-', .ident 'Z'], .punct '*'], "@#$%", some 4⟩ : LibTest),
    (⟨[.bracket [.punct '^', .ident 'a', .punct '-', .ident 'z'], .punct '+'], "AEUF", some 4⟩ : LibTest),
    (⟨[.bracket [.punct '^', .ident 'a', .punct '-', .ident 'z'], .punct '+'], "aefc", none⟩ : LibTest),
    (⟨[.bracket [.punct '^', .ident 'a', .punct '-', .ident 'z'], .brace [.num 3]], "AEUF", some 3⟩ : LibTest),
    (⟨[.bracket [.punct '^', .ident 'a', .punct '-', .ident 'z'], .brace [.num 3]], "aefc", none⟩ : LibTest),
    (⟨[.bracket [.punct '^', .ident 'a', .punct '-', .ident 'z'], .brace [.num 3, .punct ',', .num 6]], "AEUF", some 4⟩ : LibTest),
    (⟨[.bracket [.punct '^', .ident 'a', .punct '-', .ident 'z'], .brace [.num 3, .punct ',', .num 6]], "aefc", none⟩ : LibTest),
    (⟨[.bracket [.punct '^', .ident 'a', .punct '-', .ident 'z'], .brace [.num 3, .punct ',']], "AEUF", some 4⟩ : LibTest),
    (⟨[.bracket [.punct '^', .ident 'a', .punct '-', .ident 'z'], .brace [.num 3, .punct ',']], "aefc", none⟩ : LibTest),
    (⟨[.bracket [.punct '^', .lit 'a', .punct '-', .lit 'z', .lit 'A', .punct '-', .lit 'Z'], .punct '*'], "@#$%", some 4⟩ : LibTest),
    (⟨[.bracket [.punct '^', .lit 'a', .punct '-', .lit 'z'], .punct '+'], "AEUF", some 4⟩ : LibTest),
    (⟨[.bracket [.punct '^', .lit 'a', .punct '-', .lit 'z'], .punct '+'], "aefc", none⟩ : LibTest),
    (⟨[.bracket [.punct '^', .lit 'a', .punct '-', .lit 'z'], .brace [.num 3]], "AEUF", some 3⟩ : LibTest),
    (⟨[.bracket [.punct '^', .lit 'a', .punct '-', .lit 'z'], .brace [.num 3]], "aefc", none⟩ : LibTest),
    (⟨[.bracket [.punct '^', .lit 'a', .punct '-', .lit 'z'], .brace [.num 3, .punct ',', .num 6]], "AEUF", some 4⟩ : LibTest),
    (⟨[.bracket [.punct '^', .lit 'a', .punct '-', .lit 'z'], .brace [.num 3, .punct ',', .num 6]], "aefc", none⟩ : LibTest),
    (⟨[.bracket [.punct '^', .lit 'a', .punct '-', .lit 'z'], .brace [.num 3, .punct ',']], "AEUF", some 4⟩ : LibTest),
    (⟨[.bracket [.punct '^', .lit 'a', .punct '-', .lit 'z'], .brace [.num 3, .punct ',']], "aefc", none⟩ : LibTest)
  ].all LibTest.passes = true := by decide +kernel

/-! ## `test_range`, `src/lib.rs:358-447` -/

example : [
    (⟨[.bracket [.ident 'a', .punct '-', .ident 'z']], "aefc", some 1⟩ : LibTest),
    (⟨[.bracket [.ident 'a', .punct '-', .ident 'z', .ident 'A', .punct '-', .ident 'Z']], "aefc", some 1⟩ : LibTest),
    (⟨[.bracket [.ident 'a', .punct '-', .ident 'z'], .punct '?'], "aefc", some 1⟩ : LibTest),
    (⟨[.bracket [.ident 'a', .punct '-', .ident 'z'], .punct '?'], "AEUF", some 0⟩ : LibTest),
    (⟨[.bracket [.ident 'a', .punct '-', .ident 'z', .ident 'A', .punct '-', .ident 'Z']], "AEUF", some 1⟩ : LibTest),
    (⟨[.bracket [.ident 'a', .punct '-', .ident 'z'], .punct '*'], "aefc", some 4⟩ : LibTest),
    (⟨[.bracket [.ident 'a', .punct '-', .ident 'z'], .punct '*'], "AEUF", some 0⟩ : LibTest),
    (⟨[.bracket [.ident 'a', .punct '-', .ident 'z', .ident 'A', .punct '-', .ident 'Z'], .punct '*'], "AEUF", some 4⟩ : LibTest),
    (⟨[.bracket [.ident 'a', .punct '-', .ident 'z'], .punct '+'], "aefc", some 4⟩ : LibTest),
    (⟨[.bracket [.ident 'a', .punct '-', .ident 'z'], .punct '+'], "AEUF", none⟩ : LibTest),
    (⟨[.bracket [.ident 'a', .punct '-', .ident 'z'], .brace [.num 3]], "aefc", some 3⟩ : LibTest),
    (⟨[.bracket [.ident 'a', .punct '-', .ident 'z'], .brace [.num 3]], "AEUF", none⟩ : LibTest),
    (⟨[.bracket [.ident 'a', .punct '-', .ident 'z'], .brace [.num 3, .punct ',', .num 6]], "aefc", some 4⟩ : LibTest),
    (⟨[.bracket [.ident 'a', .punct '-', .ident 'z'], .brace [.num 3, .punct ',', .num 6]], "AEUF", none⟩ : LibTest),
    (⟨[.bracket [.ident 'a', .punct '-', .ident 'z'], .brace [.num 3, .punct ',']], "aefc", some 4⟩ : LibTest),
    (⟨[.bracket [.ident 'a', .punct '-', .ident 'z'], .brace [.num 3, .punct ',']], "AEUF", none⟩ : LibTest),
    (⟨[.bracket [.lit 'a', .punct '-', .lit 'z']], "aefc", some 1⟩ : LibTest),
    (⟨[.bracket [.lit 'a', .punct '-', .lit 'z'], .punct '?'], "aefc", some 1⟩ : LibTest),
    (⟨[.bracket [.lit 'a', .punct '-', .lit 'z'], .punct '?'], "AEUF", some 0⟩ : LibTest),
    (⟨[.bracket [.lit 'a', .punct '-', .lit 'z'], .punct '*'], "aefc", some 4⟩ : LibTest),
    (⟨[.bracket [.lit 'a', .punct '-', .lit 'z'], .punct '*'], "AEUF", some 0⟩ : LibTest),
    (⟨[.bracket [.lit 'a', .punct '-', .lit 'z'], .punct '+'], "aefc", some 4⟩ : LibTest),
    (⟨[.bracket [.lit 'a', .punct '-', .lit 'z'], .punct '+'], "AEUF", none⟩ : LibTest),
    (⟨[.bracket [.lit 'a', .punct '-', .lit 'z', .lit 'A', .punct '-', .lit 'Z'], .punct '+'], "AEUF", some 4⟩ : LibTest),
    (⟨[.bracket [.lit 'a', .punct '-', .lit 'z'], .brace [.num 3]], "aefc", some 3⟩ : LibTest),
    (⟨[.bracket [.lit 'a', .punct '-', .lit 'z'], .brace [.num 3]], "AEUF", none⟩ : LibTest),
    (⟨[.bracket [.lit 'a', .punct '-', .lit 'z'], .brace [.num 3, .punct ',', .num 6]], "aefc", some 4⟩ : LibTest),
    (⟨[.bracket [.lit 'a', .punct '-', .lit 'z'], .brace [.num 3, .punct ',', .num 6]], "AEUF", none⟩ : LibTest),
    (⟨[.bracket [.lit 'a', .punct '-', .lit 'z'], .brace [.num 3, .punct ',']], "aefc", some 4⟩ : LibTest),
    (⟨[.bracket [.lit 'a', .punct '-', .lit 'z'], .brace [.num 3, .punct ',']], "AEUF", none⟩ : LibTest)
  ].all LibTest.passes = true := by decide +kernel

/-! ## `test_chars_negative`, `src/lib.rs:450-497` -/

example : [
    (⟨[.bracket [.punct '^', .ident 'b', .ident 'c', .ident 'd']], "aefc", some 1⟩ : LibTest),
    (⟨[.bracket [.punct '^', .ident 'b', .ident 'c', .ident 'd'], .punct '?'], "aefc", some 1⟩ : LibTest),
    (⟨[.bracket [.punct '^', .lit 'b', .lit 'c', .lit 'd']], "aefc", some 1⟩ : LibTest),
    (⟨[.bracket [.punct '^', .lit 'b', .lit 'c', .lit 'd'], .punct '?'], "aefc", some 1⟩ : LibTest),
    (⟨[.bracket [.punct '^', .ident 'b', .ident 'c', .ident 'd'], .punct '?'], "daefc", some 0⟩ : LibTest),
    (⟨[.bracket [.punct '^', .ident 'b', .ident 'c', .ident 'd'], .punct '*'], "aefc", some 3⟩ : LibTest),
    (⟨[.bracket [.punct '^', .ident 'b', .ident 'c', .ident 'd'], .punct '*'], "daefc", some 0⟩ : LibTest),
    (⟨[.bracket [.punct '^', .ident 'b', .ident 'c', .ident 'd'], .punct '+'], "aefc", some 3⟩ : LibTest),
    (⟨[.bracket [.punct '^', .ident 'b', .ident 'c', .ident 'd'], .punct '+'], "aefcddd", some 3⟩ : LibTest),
    (⟨[.bracket [.punct '^', .ident 'b', .ident 'c', .ident 'd'], .punct '+'], "baefcddd", none⟩ : LibTest),
    (⟨[.bracket [.punct '^', .ident 'b', .ident 'c', .ident 'd'], .brace [.num 4]], "aefh", some 4⟩ : LibTest),
    (⟨[.bracket [.punct '^', .ident 'b', .ident 'c', .ident 'd'], .brace [.num 4, .punct ',']], "aefhcc", some 4⟩ : LibTest),
    (⟨[.bracket [.punct '^', .ident 'b', .ident 'c', .ident 'd'], .brace [.num 4, .punct ',', .num 7]], "aefhccd", some 4⟩ : LibTest),
    (⟨[.bracket [.punct '^', .ident 'b', .ident 'c', .ident 'd'], .brace [.num 4, .punct ',', .num 7]], "aecfhccd", none⟩ : LibTest)
  ].all LibTest.passes = true := by decide +kernel

/-! ## `test_chars`, `src/lib.rs:500-598` -/

example : [
    (⟨[.bracket [.ident 'b', .ident 'c', .ident 'd']], "dabcd", some 1⟩ : LibTest),
    (⟨[.bracket [.ident 'b', .ident 'c', .ident 'd'], .punct '?'], "dabcd", some 1⟩ : LibTest),
    (⟨[.bracket [.ident 'b', .ident 'c', .ident 'd'], .punct '?'], "edabcd", some 0⟩ : LibTest),
    (⟨[.bracket [.ident 'b', .ident 'c', .ident 'd'], .punct '*'], "dbcd", some 4⟩ : LibTest),
    (⟨[.bracket [.ident 'b', .ident 'c', .ident 'd'], .punct '*'], "aeuyf", some 0⟩ : LibTest),
    (⟨[.bracket [.ident 'b', .ident 'c', .ident 'd'], .punct '+'], "dabcd", some 1⟩ : LibTest),
    (⟨[.bracket [.ident 'b', .ident 'c', .ident 'd'], .punct '+'], "dbcdfff", some 4⟩ : LibTest),
    (⟨[.bracket [.ident 'b', .ident 'c', .ident 'd'], .punct '+'], "abcd", none⟩ : LibTest),
    (⟨[.bracket [.ident 'b', .ident 'c', .ident 'd'], .brace [.num 4]], "dbcd", some 4⟩ : LibTest),
    (⟨[.bracket [.ident 'b', .ident 'c', .ident 'd'], .brace [.num 4, .punct ',']], "dbcdccc", some 7⟩ : LibTest),
    (⟨[.bracket [.ident 'b', .ident 'c', .ident 'd'], .brace [.num 4, .punct ',', .num 7]], "dbcdbb", some 6⟩ : LibTest),
    (⟨[.bracket [.lit 'b', .lit 'c', .lit 'd']], "dabcd", some 1⟩ : LibTest),
    (⟨[.bracket [.lit 'b', .lit 'c', .lit 'd'], .punct '?'], "dabcd", some 1⟩ : LibTest),
    (⟨[.bracket [.lit 'b', .lit 'c', .lit 'd'], .punct '?'], "edabcd", some 0⟩ : LibTest),
    (⟨[.bracket [.lit 'b', .lit 'c', .lit 'd'], .punct '*'], "dbcd", some 4⟩ : LibTest),
    (⟨[.bracket [.lit 'b', .lit 'c', .lit 'd'], .punct '*'], "aeuyf", some 0⟩ : LibTest),
    (⟨[.bracket [.lit 'b', .lit 'c', .lit 'd'], .punct '+'], "dabcd", some 1⟩ : LibTest),
    (⟨[.bracket [.lit 'b', .lit 'c', .lit 'd'], .punct '+'], "dbcdfff", some 4⟩ : LibTest),
    (⟨[.bracket [.lit 'b', .lit 'c', .lit 'd'], .punct '+'], "abcd", none⟩ : LibTest),
    (⟨[.bracket [.lit 'b', .lit 'c', .lit 'd'], .brace [.num 4]], "dbcd", some 4⟩ : LibTest),
    (⟨[.bracket [.lit 'b', .lit 'c', .lit 'd'], .brace [.num 4, .punct ',']], "dbcdccc", some 7⟩ : LibTest),
    (⟨[.bracket [.lit 'b', .lit 'c', .lit 'd'], .brace [.num 4, .punct ',', .num 7]], "dbcdbb", some 6⟩ : LibTest)
  ].all LibTest.passes = true := by decide +kernel

/-! ## `test_char`, `src/lib.rs:601-635` -/

example : [
    (⟨[.ident 'a'], "a", some 1⟩ : LibTest),
    (⟨[.lit 'a'], "a", some 1⟩ : LibTest),
    (⟨[.ident 'a', .punct '?'], "a", some 1⟩ : LibTest),
    (⟨[.lit 'a', .punct '?'], "a", some 1⟩ : LibTest),
    (⟨[.ident '你'], "你", some 3⟩ : LibTest),
    (⟨[.lit '你'], "你you", some 3⟩ : LibTest),
    (⟨[.lit '@'], "@", some 1⟩ : LibTest),
    (⟨[.ident 'a', .punct '?'], "der", some 0⟩ : LibTest),
    (⟨[.lit 'a', .punct '?'], "", some 0⟩ : LibTest),
    (⟨[.ident 'a', .punct '*'], "a", some 1⟩ : LibTest),
    (⟨[.lit 'a', .punct '*'], "aaaaaee", some 5⟩ : LibTest),
    (⟨[.ident 'a', .punct '*'], "cde", some 0⟩ : LibTest),
    (⟨[.lit 'a', .punct '+'], "aaaaee", some 4⟩ : LibTest),
    (⟨[.ident '你', .punct '+'], "你你你", some 9⟩ : LibTest),
    (⟨[.ident '你', .punct '+'], "我你你你", none⟩ : LibTest),
    (⟨[.lit 'a', .brace [.num 2]], "aaaaee", some 2⟩ : LibTest),
    (⟨[.ident '你', .brace [.num 2]], "你你你", some 6⟩ : LibTest),
    (⟨[.ident '你', .brace [.num 2]], "你", none⟩ : LibTest),
    (⟨[.lit 'a', .brace [.num 2, .punct ',']], "aaaaee", some 4⟩ : LibTest),
    (⟨[.ident '你', .brace [.num 2, .punct ',']], "你你你", some 9⟩ : LibTest),
    (⟨[.ident '你', .brace [.num 2, .punct ',']], "你", none⟩ : LibTest),
    (⟨[.lit 'a', .brace [.num 2, .punct ',', .num 3]], "aaaaee", some 3⟩ : LibTest),
    (⟨[.ident '你', .brace [.num 2, .punct ',', .num 4]], "你你你你你啊", some 12⟩ : LibTest),
    (⟨[.ident '你', .brace [.num 2, .punct ',', .num 4]], "你啊", none⟩ : LibTest)
  ].all LibTest.passes = true := by decide +kernel

/-! ## `test_space`, `src/lib.rs:638-677` -/

example : [
    (⟨[], "\tcd", some 1⟩ : LibTest),
    (⟨[.punct '?'], "\tdwq", some 1⟩ : LibTest),
    (⟨[.punct '?'], "dwq", some 0⟩ : LibTest),
    (⟨[.punct '*'], "\t\n\rdda", some 3⟩ : LibTest),
    (⟨[.punct '*'], "dda", some 0⟩ : LibTest),
    (⟨[.punct '+'], "\t\n\rdda", some 3⟩ : LibTest),
    (⟨[.punct '+'], "\tdda", some 1⟩ : LibTest),
    (⟨[.punct '+'], "dda", none⟩ : LibTest),
    (⟨[.brace [.num 2]], " \u00a0dda", some 3⟩ : LibTest),
    (⟨[.brace [.num 2]], "\u00a0dda", none⟩ : LibTest),
    (⟨[.brace [.num 2, .punct ',']], "\t\rdda", some 2⟩ : LibTest),
    (⟨[.brace [.num 2, .punct ',']], "\t\r\u00a0dda", some 4⟩ : LibTest),
    (⟨[], "dda", none⟩ : LibTest),
    (⟨[.brace [.num 2, .punct ',', .num 3]], "\t\ndda", some 2⟩ : LibTest),
    (⟨[.brace [.num 2, .punct ',', .num 3]], "\t\r\u00a0dda", some 4⟩ : LibTest),
    (⟨[.brace [.num 2, .punct ',', .num 3]], "\t\r \u00a0dda", some 3⟩ : LibTest),
    (⟨[.brace [.num 2, .punct ',', .num 3]], " dda", none⟩ : LibTest)
  ].all LibTest.passes = true := by decide +kernel

end Neure.Conform
