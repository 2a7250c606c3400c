import Verif.Api
import Verif.Demo
import Verif.Macro
import Verif.Find
import Verif.NumText
/-!
# Conformance: the crate's own tests, run in the model

The assertions of `/repo/tests`, evaluated in the model.  These are tests of the
model against behaviour its authors state, not proofs of a property: they belong
to the evidence for the trusted base ("the model is the code"), not to the claims.
Both feature variants (`alloc` and not) of a test are included.
-/

namespace Neure.Conform

open Neure.Demo

/-- Values in the tests: matched input, or a number made from it. -/
inductive D (ι : Type) where
  | text (l : List ι)
  | num (n : Int)
  deriving DecidableEq, Repr

section Run

variable {ι β : Type} [Item ι]

/-- `ctx.ctor(p)`: the handler `Extract<&str>`/`Extract<&[u8]>`. -/
def dH : Handler ι (D ι) Unit := fun d _ s st =>
  (match origSub d s.beg s.len with
    | .ok l => .ok (.text l)
    | .err e => .err e
    | .panic => .panic, st)

/-- The value of a result; `none` for an error, a panic, or no result. -/
def value {σ α : Type} : Option (CRes σ α) → Option α
  | some (.ok a _ _) => some a
  | _ => none

/-- `.is_err()` of a result of `ctor`. -/
def isErr {σ α : Type} : Option (CRes σ α) → Bool
  | some (.err _ _ _) => true
  | _ => false

/-- `.is_err()` of a result of `try_mat`. -/
def failed {α : Type} : Option (Res α) → Bool
  | some (.err _ _) => true
  | _ => false

end Run

/-- A string pattern. -/
def lit {β : Type} (s : String) : Pat Char β := .lit s.toList

/-- A piece of text as a value. -/
def t (s : String) : Val (D Char) := .base (.text s.toList)

/-- A number as a value. -/
def n (i : Int) : Val (D Char) := .base (.num i)

/-- `CharsCtx::new(s).ctor(p)`. -/
def ctor (p : Pat Char (D Char)) (s : String) : Option (CRes Unit (Val (D Char))) :=
  con G0 dH 100 none s.toList p () 0

/-- `CharsCtx::new(s).skip_before(sp).ctor(p)`. -/
def ctorSkip (sp p : Pat Char (D Char)) (s : String) : Option (CRes Unit (Val (D Char))) :=
  con G0 dH 100 (some sp) s.toList p () 0

/-- `CharsCtx::new(s).ctor_span(p)`. -/
def ctorSpan (p : Pat Char Span) (s : String) : Option (CRes Unit (Val Span)) :=
  con G0 spanH 100 none s.toList p () 0

/-- `ctx.try_mat(p)` on `s`, the context being at offset `o`. -/
def mat (p : Pat Char Unit) (s : String) (o : Nat := 0) : Option (Res Span) :=
  tryMat G0 100 none s.toList p o

/-- A span as a value. -/
def sp (b l : Nat) : Val Span := .base ⟨b, l⟩

/-- A character range `a..=b`. -/
def rng (a b : Char) : Neu Char := .range (RangeExpr.rangeIncl a.toNat b.toNat).toCRange

/-- `p._0()`, `src/ctor.rs:343-346`. -/
def fst {ι : Type} (p : Pat ι (D ι)) : Pat ι (D ι) :=
  .map p fun | .pair a _ => .ok a | _ => .panic

/-- `p._1()`, `src/ctor.rs:348-351`. -/
def snd {ι : Type} (p : Pat ι (D ι)) : Pat ι (D ι) :=
  .map p fun | .pair _ b => .ok b | _ => .panic

/-- `try_map(from_str_radix::<iN/uN>(radix))`. -/
def num (signed : Bool) (bits radix : Nat) (p : Pat Char (D Char)) : Pat Char (D Char) :=
  .map p fun
    | .base (.text l) => match fromStr (fromStrRadix signed bits radix) l with
      | .ok n => .ok (.base (.num n))
      | .err e => .err e
      | .panic => .panic
    | _ => .panic

/-- `neu::whitespace().many0()`. -/
def ws {β : Type} : Pat Char β := .many0 Unit.whitespace .empty

/-! ## `tests/01_collect.rs:10-22` -/

example : value (ctorSpan (.collect (.once Unit.asciiAlphabetic .empty) 1) "abcdf") =
    some (.list [sp 0 1, sp 1 1, sp 2 1, sp 3 1, sp 4 1]) := by decide +kernel

/-! ## `tests/02_ltm.rs:10-24` -/

def name02 {β : Type} : Pat Char β := lit "localhost"
def port02 {β : Type} : Pat Char β := .sepOnce name02 (lit ":") (lit "8080")

example : mat (.or name02 port02) "localhost" = some (.ok ⟨0, 9⟩ 9) := by decide +kernel
example : mat (.or name02 port02) "localhost:8080" = some (.ok ⟨0, 9⟩ 9) := by decide +kernel
example : mat (.longest name02 port02) "localhost:8080" = some (.ok ⟨0, 14⟩ 14) := by decide +kernel

/-! ## `tests/03_or.rs:10-15` -/

example : mat (.or (lit "localhost") (lit "127.0.0.1")) "127.0.0.1" = some (.ok ⟨0, 9⟩ 9) := by
  decide +kernel
example : mat (.or (lit "localhost") (lit "127.0.0.1")) "localhost" = some (.ok ⟨0, 9⟩ 9) := by
  decide +kernel

/-! ## `tests/04_quote.rs:8-40` -/

example : value (ctorSpan (.enclose (lit "[") (.sep2 (.many1 (rng '0' '9') .empty)
      (.once (.item ',') .empty) true 1 5) (lit "]")) "[123,456,789]") =
    some (.list [.some (sp 1 3), .some (sp 5 3), .some (sp 9 3), .none, .none]) := by decide +kernel

example : value (ctorSpan (.enclose (lit "[") (.sep (.many1 (rng '0' '9') .empty)
      (.once (.item ',') .empty) true 1) (lit "]")) "[123,456,789]") =
    some (.list [sp 1 3, sp 5 3, sp 9 3]) := by decide +kernel

/-! ## `tests/05_repeat.rs:9-45` -/

example : isErr (ctorSpan (.rep (lit "foo") (RangeExpr.rangeIncl 2 5).toCRange) "foo") = true := by
  decide +kernel
example : value (ctorSpan (.rep (lit "foo") (RangeExpr.rangeIncl 2 5).toCRange) "foofoofoofoo") =
    some (.list [sp 0 3, sp 3 3, sp 6 3, sp 9 3]) := by decide +kernel
example : isErr (ctorSpan (.rep2 (lit "foo") 2 5) "foo") = true := by decide +kernel
example : value (ctorSpan (.rep2 (lit "foo") 2 5) "foofoofoofoo") =
    some (.list [.some (sp 0 3), .some (sp 3 3), .some (sp 6 3), .some (sp 9 3), .none]) := by
  decide +kernel

/-! ## `tests/06_sep_once.rs:10-16` -/

example : value (ctorSpan (.sepOnce (.many1 (.not (.item ':')) .empty) (lit ":")
      (.many1 (.not (.item ':')) .empty)) "Explained: What is programming language?") =
    some (.pair (sp 0 9) (sp 10 30)) := by decide +kernel

/-! ## `tests/07_sep_collect.rs:10-24` -/

def host07 {β : Type} : Pat Char β := .many1 (.or (.item '.') Unit.asciiAlphabetic) .empty

example : value (ctorSpan (.sepCollect (.or (.sepOnce (lit "http") (lit "://") host07)
      (.sepOnce (lit "https") (lit "://") host07)) (lit ",") true 1)
      "https://developer.mozilla.org,http://developer.mozilla.org") =
    some (.list [.pair (sp 0 5) (sp 8 21), .pair (sp 30 4) (sp 37 21)]) := by decide +kernel

/-! ## `tests/08_sep.rs:8-38` -/

example : value (ctorSpan (.sep2 (.many1 (rng '0' '9') .empty) (.once (.item ',') .empty) true 1 3)
      "123,456,789") = some (.list [.some (sp 0 3), .some (sp 4 3), .some (sp 8 3)]) := by
  decide +kernel
example : value (ctorSpan (.sep (.many1 (rng '0' '9') .empty) (.once (.item ',') .empty) true 1)
      "123,456,789") = some (.list [sp 0 3, sp 4 3, sp 8 3]) := by decide +kernel

/-! ## `tests/09_then.rs:10-17` -/

example : value (ctorSpan (.thn (.many1 Unit.asciiAlphabetic .empty)
      (.many1 Unit.asciiAlphanumeric .empty)) "abc42") =
    some (.pair (sp 0 3) (sp 3 2)) := by decide +kernel

/-! ## `tests/10_wrap.rs:13-101`

`Ty::Layer0(a)` is represented by `a`, `Layer1(a, b)` by `(a, b)`, `Layer2(a, b, c)` by
`(a, (b, c))`; `Field::public(i, ty)` by `((i, ty), 1)`, private by `((i, ty), 0)`. -/

def ident10 : Pat Char (D Char) :=
  .many1 (.or (.or Unit.asciiAlphabetic Unit.asciiAlphanumeric) (.item '_')) .empty
def ty10 : Pat Char (D Char) := .pat (.thn (.once (.or Unit.asciiAlphabetic (.item '_')) .empty) ident10)
def layer1 : Pat Char (D Char) := .thn ty10 (.enclose (lit "<") ty10 (lit ">"))
def layer2 : Pat Char (D Char) :=
  .thn ty10 (.enclose (lit "<") (.thn ty10 (.enclose (lit "<") ty10 (lit ">"))) (lit ">"))
def field10 : Pat Char (D Char) :=
  .sepOnce ident10 (lit ":") (.or (.map layer2 .ok) (.or (.map layer1 .ok) (.map ty10 .ok)))
def fields10 : Pat Char (D Char) :=
  .sep (.or (.map (.pre (lit "pub") field10) fun v => .ok (.pair v (n 1)))
    (.map field10 fun v => .ok (.pair v (n 0)))) (lit ",") true 1

example : value (ctorSkip ws fields10 "a: i64, b: Option<String>, pub c: bool") =
    some (.list [.pair (.pair (t "a") (t "i64")) (n 0),
      .pair (.pair (t "b") (.pair (t "Option") (t "String"))) (n 0),
      .pair (.pair (t "c") (t "bool")) (n 1)]) := by decide +kernel

/-! ## `tests/11_policy.rs:10-58` (on the beginning of the file itself) -/

def file11 : String :=
  "use neure::prelude::*;\nuse std::fs::read_to_string;\n\n#[test]\nfn policy() {\n"

def ident11 : Pat Char (D Char) :=
  .pat (.thn (.once (.or Unit.asciiAlphabetic (.item '_')) .empty)
    (.many0 (.or Unit.asciiAlphanumeric (.item '_')) .empty))

example : value (ctorSkip ws (.collect (.suf (.pre (lit "use") (.thn (.sep ident11 (lit "::") true 1)
      (.opt (lit "*")))) (lit ";")) 1) file11) =
    some (.list [.pair (.list [t "neure", t "prelude"]) (.some (t "*")),
      .pair (.list [t "std", t "fs", t "read_to_string"]) .none]) := by decide +kernel

example : value (ctorSkip ws (.collect (.suf (.pre (lit "use") (.thn (.sep2 ident11 (lit "::") true 1 5)
      (.opt (lit "*")))) (lit ";")) 1) file11) =
    some (.list [.pair (.list [.some (t "neure"), .some (t "prelude"), .none, .none, .none]) (.some (t "*")),
      .pair (.list [.some (t "std"), .some (t "fs"), .some (t "read_to_string"), .none, .none]) .none]) := by
  decide +kernel

/-! ## `README.md:18-31` -/

example : value (ctor (.thn (num true 32 10 (.many1 (rng '0' '9') .empty))
      (.many1 Unit.asciiAlphabetic .empty)) "2024rust") =
    some (.pair (n 2024) (t "rust")) := by decide +kernel

end Neure.Conform
