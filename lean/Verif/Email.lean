import Verif.Macro
import Verif.Ctor
/-!
# The e-mail parser of the README and of the benchmarks

`README.md:36-64` (code comparison), `bench/regex_nocap.rs:55-78` (matching) and
`bench/regex_cap.rs:70-87` (capturing).

Simplification: `.try_map(|(v1, (v2, v3))| Ok((v1, v2, v3)))` keeps the nested pair,
the values of the model have pairs only.
-/

namespace Neure.Email

variable {β : Type}

/-- `neu::range('a'..='z')`, `bench/regex_nocap.rs:57`. -/
def alpha : Neu Char := .range (RangeExpr.rangeIncl 'a'.toNat 'z'.toNat).toCRange

/-- `neu::digit(10)`, `bench/regex_nocap.rs:58`. -/
def num : Neu Char := Unit.digit 10

/-- `regex!((alpha, num, '_', '.', '+', '-')+)`, `bench/regex_nocap.rs:59`; the
expansion is `Macro.regex` (`name_expands`). -/
def name : Pat Char β :=
  .many1 (Macro.orAll [alpha, num, .item '_', .item '.', .item '+', .item '-']) .empty

theorem name_expands : Macro.regex (β := β)
    [.paren [alpha, num, .item '_', .item '.', .item '+', .item '-'], .punct '+'] = some name := rfl

/-- `regex_cond(not(".".then('.'.not().many0()).then(end())))`,
`bench/regex_nocap.rs:60-61`. -/
def cond : Cond Char β :=
  .regex (.assert (.thn (.thn (.lit ['.']) (.many0 (.not (.item '.')) .empty)) .anchorEnd) false)

/-- `alpha.or(num).or('.').or('-').at_most::<256>().set_cond(cond)`,
`bench/regex_nocap.rs:62-67`; `at_most::<N>` is `between::<0, N>`, `src/neu.rs:735-737`. -/
def domain : Pat Char β :=
  .between 0 256 (.or (.or (.or alpha num) (.item '.')) (.item '-')) cond

/-- `neu!((letter, number, '.', '-')).at_most::<256>().set_cond(cond)`,
`bench/regex_cap.rs:76-78`. -/
def domain' : Pat Char β :=
  .between 0 256 (Macro.orAll [alpha, num, .item '.', .item '-']) cond

/-- `neu!((alpha, '.')).between::<2, 6>()`, `bench/regex_nocap.rs:72`,
`bench/regex_cap.rs:79`. -/
def post : Pat Char β := .between 2 6 (Macro.orAll [alpha, .item '.']) .empty

/-- `start().then(name).sep_once("@", domain.sep_once(".", post)).then(end())`,
`bench/regex_nocap.rs:68-74`. -/
def email : Pat Char β :=
  .thn (.sepOnce (.thn .start name) (.lit ['@']) (.sepOnce domain (.lit ['.']) post)) .anchorEnd

/-- `name.sep_once("@", domain.sep_once(".", post)).try_map(..).enclose(start(), end())`,
`bench/regex_cap.rs:80-83`. -/
def emailCap : Pat Char β :=
  .enclose .start
    (.map (.sepOnce name (.lit ['@']) (.sepOnce domain' (.lit ['.']) post)) fun v => .ok v) .anchorEnd

/-! ## Specification -/

/-- `[a-z0-9_.+-]` -/
def NameChar (c : Char) : Prop := 'a' ≤ c ∧ c ≤ 'z' ∨ '0' ≤ c ∧ c ≤ '9' ∨ c ∈ ['_', '.', '+', '-']

/-- `[a-z0-9.-]` -/
def DomainChar (c : Char) : Prop := 'a' ≤ c ∧ c ≤ 'z' ∨ '0' ≤ c ∧ c ≤ '9' ∨ c ∈ ['.', '-']

/-- `[a-z.]` -/
def PostChar (c : Char) : Prop := 'a' ≤ c ∧ c ≤ 'z' ∨ c = '.'

instance (c : Char) : Decidable (NameChar c) := by unfold NameChar; infer_instance
instance (c : Char) : Decidable (DomainChar c) := by unfold DomainChar; infer_instance
instance (c : Char) : Decidable (PostChar c) := by unfold PostChar; infer_instance

/-- `s` is a name, `@`, a (possibly empty) domain, a dot, and a last part of two to six
characters. -/
structure Split (s name dom post : List Char) : Prop where
  eq : s = name ++ '@' :: (dom ++ '.' :: post)
  name_ne : name ≠ []
  name_ok : ∀ c ∈ name, NameChar c
  dom_ok : ∀ c ∈ dom, DomainChar c
  post_ok : ∀ c ∈ post, PostChar c
  post_min : 2 ≤ post.length
  post_max : post.length ≤ 6

/-- The regular expression of the comparison,
`^([a-z0-9_\.\+-]+)@([\da-z\.-]+)\.([a-z\.]{2,6})$` with ASCII digits (`README.md`,
`bench/regex_nocap.rs:23`): the domain has at least one character. -/
def RegexSplit (s name dom post : List Char) : Prop := Split s name dom post ∧ dom ≠ []

/-- What the parser does instead: the domain ends before the last dot of the input,
or after 256 characters. -/
def ParserSplit (s name dom post : List Char) : Prop :=
  Split s name dom post ∧ ('.' ∉ post ∧ dom.length ≤ 256 ∨ dom.length = 256)

end Neure.Email
