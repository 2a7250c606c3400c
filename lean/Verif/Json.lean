import Verif.PropsEscape
import Verif.PropsCtorBase
/-!
# The JSON example, `examples/json.rs`

`jsonRules` is the recursive grammar built by `JsonParser::parse`
(`examples/json.rs:22-61`) on a `BytesCtx`.  `dyn_box`, `rc` and `clone` only
forward and are not represented.  Bytes are written as numbers with the
character in a comment.
-/

namespace Neure

set_option linter.unusedSectionVars false

/-- `JsonZero`, `examples/json.rs:1-9`.  `ν` stands for `f64`. -/
inductive Json (ν : Type) where
  | null
  | bool (b : Bool)
  | str (s : List UInt8)
  | num (x : ν)
  | arr (l : List (Json ν))
  | obj (l : List (List UInt8 × Json ν))

/-- What a program makes of the texts it has read: numbers out of numerals, and
which strings it lets in. -/
structure JConv (ν : Type) where
  num : List UInt8 → Except Error ν
  str : List UInt8 → Except Error Unit

/-- `examples/json.rs`: numbers by `to_digit` (lines 67-73), strings as they are. -/
def JConv.zero {ν : Type} (toDigit : List UInt8 → Except Error ν) : JConv ν := ⟨toDigit, fun _ => .ok ()⟩

/-- The values a `construct` of the grammar passes around: byte slices and
`JsonZero` values. -/
inductive JVal (ν : Type) where
  | slice (l : List UInt8)
  | json (j : Json ν)

section Grammar
variable {ν : Type}

/-- The handler of `ctx.ctor` (`src/ctx.rs:349`), `Extract<&[u8]>`, `extractH`. -/
def jsonH : Handler UInt8 (JVal ν) Unit := fun d _ s st =>
  match origSub d s.beg s.len with
  | .ok l => (.ok (.slice l), st)
  | .err e => (.err e, st)
  | .panic => (.panic, st)

/-- `u8::is_ascii_whitespace` (std): space, `\t`, `\n`, `\x0C`, `\r`. -/
def isWs (x : UInt8) : Bool := [32, 9, 10, 12, 13].contains x

/-- `u8::is_ascii_alphabetic` (std). -/
def isAlpha (x : UInt8) : Bool := (65 ≤ x && x ≤ 90) || (97 ≤ x && x ≤ 122)

/-- `u8::is_ascii_digit` (std). -/
def isDigit (x : UInt8) : Bool := 48 ≤ x && x ≤ 57

/-- `let ws = u8::is_ascii_whitespace.many0();` line 23. -/
def jWs : Pat UInt8 (JVal ν) := .many0 (.pred isWs) .empty

/-- `let sign = neu!((b'+', b'-')).opt();` line 24; `neu!((a, b))` is
`never().or(a).or(b)`, `src/macro.rs:247-255`. -/
def jSign : Pat UInt8 (JVal ν) := .optU (.or (.or .never (.item 43)) (.item 45)) .empty

/-- `let digit = range(b'0'..=b'9').many1();` line 25. -/
def jDigit : Pat UInt8 (JVal ν) := .many1 (.range ⟨.incl 48, .incl 57⟩) .empty

/-- `let dec = b".".then(digit).pat();` line 26. -/
def jDec : Pat UInt8 (JVal ν) := .pat (.thn (.lit [46]) jDigit)

/-- `let num = sign.then(digit).then(dec.or(regex::empty()));` line 27. -/
def jNumText : Pat UInt8 (JVal ν) := .thn (.thn jSign jDigit) (.or jDec .empty)

/-- `num.pat().try_map(&Self::to_digit)`, line 28.  `cv.num` is `to_digit`
(lines 67-73) on the bytes, without its `JsonZero::Num` wrapper: `from_utf8` and
`f64::from_str` of the standard library, an arbitrary function here. -/
def jNum (cv : JConv ν) : Pat UInt8 (JVal ν) :=
  .map (.pat jNumText) fun
    | .base (.slice l) => match cv.num l with
      | .ok x => .ok (.base (.json (.num x)))
      | .error e => .err e
    | _ => .panic

/-- `neu!((b'\r', b'\t', b'\n', b'\\', b'\"'))`, line 30. -/
def jEscape : Neu UInt8 :=
  .or (.or (.or (.or (.or .never (.item 13)) (.item 9)) (.item 10)) (.item 92)) (.item 34)

/-- `str_val.enclose(b"\"", b"\"")` mapped to `JsonZero::Str`, lines 30-41.  The
example maps every text; `cv.str` is there for `bench/json.rs`, which rejects some. -/
def jStr (cv : JConv ν) : Pat UInt8 (JVal ν) :=
  .map (.enclose (.lit [34]) (escapeStrval 34 92 jEscape) (.lit [34])) fun
    | .base (.slice l) => match cv.str l with
      | .ok _ => .ok (.base (.json (.str l)))
      | .error e => .err e
    | _ => .panic

/-- `regex::literal(b"true").map(|_| JsonZero::Bool(true))`, line 43. -/
def jTrue : Pat UInt8 (JVal ν) := .map (.lit [116, 114, 117, 101]) fun _ => .ok (.base (.json (.bool true)))

/-- `regex::literal(b"false").map(|_| JsonZero::Bool(false))`, line 44. -/
def jFalse : Pat UInt8 (JVal ν) :=
  .map (.lit [102, 97, 108, 115, 101]) fun _ => .ok (.base (.json (.bool false)))

/-- `regex::literal(b"empty").map(|_| JsonZero::Null)`, line 45. -/
def jEmpty : Pat UInt8 (JVal ν) :=
  .map (.lit [101, 109, 112, 116, 121]) fun _ => .ok (.base (.json .null))

/-- `num.or(str.or(bool_t.or(bool_f.or(empty.or(ctor.clone())))))`, line 47. -/
def jCore (cv : JConv ν) : Pat UInt8 (JVal ν) :=
  .or (jNum cv) (.or (jStr cv) (.or jTrue (.or jFalse (.or jEmpty (.cell 0)))))

/-- `ele.suffix(ws).prefix(ws)`, line 48. -/
def jEle (cv : JConv ν) : Pat UInt8 (JVal ν) :=
  .pre jWs (.suf (jCore cv) jWs)

/-- `regex!((u8::is_ascii_alphabetic.or(u8::is_ascii_digit), b'_')+)`, line 50. -/
def jKeyUnit : Neu UInt8 := .or (.or .never (.or (.pred isAlpha) (.pred isDigit))) (.item 95)

/-- `key.enclose(b"\"", b"\"")` with white space around, lines 50-52. -/
def jKey : Pat UInt8 (JVal ν) :=
  .pre jWs (.suf (.enclose (.lit [34]) (.many1 jKeyUnit .empty) (.lit [34])) jWs)

/-- `key.sep_once(b":", ele)`, line 53. -/
def jMember (cv : JConv ν) : Pat UInt8 (JVal ν) :=
  .sepOnce jKey (.lit [58]) (jEle cv)

/-- A `Vec<JsonZero>` out of a list value (`none` for other shapes, which the
types exclude). -/
def toElems : Val (JVal ν) → Option (List (Json ν))
  | .nil => some []
  | .cons (.base (.json j)) l => (toElems l).map (j :: ·)
  | _ => none

/-- A `Vec<(&[u8], JsonZero)>` out of a list value. -/
def toMembers : Val (JVal ν) → Option (List (List UInt8 × Json ν))
  | .nil => some []
  | .cons (.pair (.base (.slice k)) (.base (.json j))) l => (toMembers l).map ((k, j) :: ·)
  | _ => none

/-- `obj.sep(b",").enclose(b"{", b"}")` mapped to `JsonZero::Object`, lines 54-55;
`sep` keeps a last element without separator (`skip: true`) and requires one
element (`min: 1`), `src/ctor/sep.rs:417-426`. -/
def jObject (cv : JConv ν) : Pat UInt8 (JVal ν) :=
  .map (.enclose (.lit [123]) (.sep (jMember cv) (.lit [44]) true 1) (.lit [125])) fun v =>
    match toMembers v with
    | some l => .ok (.base (.json (.obj l)))
    | none => .panic

/-- `ele.sep(b",").enclose(b"[", b"]")` mapped to `JsonZero::Array`, lines 57-58. -/
def jArray (cv : JConv ν) : Pat UInt8 (JVal ν) :=
  .map (.enclose (.lit [91]) (.sep (jEle cv) (.lit [44]) true 1) (.lit [93])) fun v =>
    match toElems v with
    | some l => .ok (.base (.json (.arr l)))
    | none => .panic

/-- `obj.or(array)`, line 60: the content of the recursive cell. -/
def jsonRules (cv : JConv ν) : Rules UInt8 (JVal ν)
  | 0 => some (.or (jObject cv) (jArray cv))
  | _ => none

/-- `JsonParser::parse(pat)`, `examples/json.rs:21-65`, returns `r` (there
`cv = .zero to_digit`):
`rec_parser` gives the recursive cell, `ctx.ctor(&parser)` constructs it from
offset 0. -/
def JsonParse (cv : JConv ν) (d : List UInt8) (r : CRes Unit (Val (JVal ν))) :
    Prop :=
  Constructs (jsonRules cv) jsonH none d (.cell 0) () 0 r

end Grammar

/-! ## The language it should accept -/

/-- White space: space, tab, line feed, form feed, carriage return. -/
def WsText (t : List UInt8) : Prop := ∀ x ∈ t, x = 32 ∨ x = 9 ∨ x = 10 ∨ x = 12 ∨ x = 13

/-- One or more decimal digits. -/
def Digits (t : List UInt8) : Prop := t ≠ [] ∧ ∀ x ∈ t, 48 ≤ x ∧ x ≤ 57

/-- `[+-]? [0-9]+ ( '.' [0-9]+ )?` -/
def Numeral (t : List UInt8) : Prop :=
  ∃ s ds fr, t = s ++ (ds ++ fr) ∧ (s = [] ∨ s = [43] ∨ s = [45]) ∧ Digits ds ∧
    (fr = [] ∨ ∃ ds', fr = 46 :: ds' ∧ Digits ds')

/-- The five bytes that form an escape pair with a backslash. -/
def Escapable (y : UInt8) : Prop := y = 13 ∨ y = 9 ∨ y = 10 ∨ y = 92 ∨ y = 34

/-- What may stand between the quotes: any bytes except the quote; a backslash
forms a pair with an escapable byte following it, and the last byte is not a
backslash outside such a pair. -/
inductive StrText : List UInt8 → Prop where
  | nil : StrText []
  | plain {x l} : x ≠ 34 → x ≠ 92 → StrText l → StrText (x :: l)
  | pair {y l} : Escapable y → StrText l → StrText (92 :: y :: l)
  | lone {y l} : ¬ Escapable y → StrText (y :: l) → StrText (92 :: y :: l)

/-- Keys: one or more of `A-Z a-z 0-9 _`. -/
def KeyText (t : List UInt8) : Prop :=
  t ≠ [] ∧ ∀ x ∈ t, (65 ≤ x ∧ x ≤ 90) ∨ (97 ≤ x ∧ x ≤ 122) ∨ (48 ≤ x ∧ x ≤ 57) ∨ x = 95

/-- The nonterminals of the grammar. -/
inductive Sort' where
  | doc | elem | elems | members

/-- What a nonterminal stands for. -/
def Sort'.Den (ν : Type) : Sort' → Type
  | .doc | .elem => Json ν
  | .elems => List (Json ν)
  | .members => List (List UInt8 × Json ν)

/-- `Reads cv .doc t j`: the text `t` is a JSON document (array or object)
denoting `j`; `.elem` are the values allowed inside, `.elems` / `.members` the
insides of brackets / braces.  A list has at least one entry and may end with a
comma. -/
inductive Reads {ν : Type} (cv : JConv ν) :
    (k : Sort') → List UInt8 → k.Den ν → Prop where
  | array {t l} : Reads cv .elems t l → Reads cv .doc (91 :: (t ++ [93])) (.arr l)
  | object {t l} : Reads cv .members t l → Reads cv .doc (123 :: (t ++ [125])) (.obj l)
  | null : Reads cv .elem [101, 109, 112, 116, 121] .null
  | true : Reads cv .elem [116, 114, 117, 101] (.bool true)
  | false : Reads cv .elem [102, 97, 108, 115, 101] (.bool false)
  | str {t} : StrText t → cv.str t = .ok () → Reads cv .elem (34 :: (t ++ [34])) (.str t)
  | num {t x} : Numeral t → cv.num t = .ok x → Reads cv .elem t (.num x)
  | nested {t j} : Reads cv .doc t j → Reads cv .elem t j
  | last {w t w' j} : WsText w → Reads cv .elem t j → WsText w' →
      Reads cv .elems (w ++ (t ++ w')) [j]
  | lastComma {w t w' j} : WsText w → Reads cv .elem t j → WsText w' →
      Reads cv .elems (w ++ (t ++ (w' ++ [44]))) [j]
  | cons {w t w' j u l} : WsText w → Reads cv .elem t j → WsText w' → Reads cv .elems u l →
      Reads cv .elems (w ++ (t ++ (w' ++ 44 :: u))) (j :: l)
  | lastM {w k w' v t v' j} : WsText w → KeyText k → WsText w' → WsText v → Reads cv .elem t j →
      WsText v' →
      Reads cv .members (w ++ (34 :: (k ++ 34 :: (w' ++ 58 :: (v ++ (t ++ v')))))) [(k, j)]
  | lastCommaM {w k w' v t v' j} : WsText w → KeyText k → WsText w' → WsText v → Reads cv .elem t j →
      WsText v' →
      Reads cv .members (w ++ (34 :: (k ++ 34 :: (w' ++ 58 :: (v ++ (t ++ (v' ++ [44]))))))) [(k, j)]
  | consM {w k w' v t v' j u l} : WsText w → KeyText k → WsText w' → WsText v → Reads cv .elem t j →
      WsText v' → Reads cv .members u l →
      Reads cv .members (w ++ (34 :: (k ++ 34 :: (w' ++ 58 :: (v ++ (t ++ (v' ++ 44 :: u)))))))
        ((k, j) :: l)

/-! ## A printer -/

section Print
variable {ν : Type} (showNum : ν → List UInt8)

mutual
/-- Compact rendering, no white space. -/
def render : Json ν → List UInt8
  | .null => [101, 109, 112, 116, 121]
  | .bool true => [116, 114, 117, 101]
  | .bool false => [102, 97, 108, 115, 101]
  | .str s => 34 :: (s ++ [34])
  | .num x => showNum x
  | .arr l => 91 :: (renderElems l ++ [93])
  | .obj l => 123 :: (renderMembers l ++ [125])
/-- The entries separated by commas. -/
def renderElems : List (Json ν) → List UInt8
  | [] => []
  | [j] => render j
  | j :: j' :: l => render j ++ 44 :: renderElems (j' :: l)
/-- The members separated by commas. -/
def renderMembers : List (List UInt8 × Json ν) → List UInt8
  | [] => []
  | [(k, j)] => 34 :: (k ++ 34 :: 58 :: render j)
  | (k, j) :: m :: l => 34 :: (k ++ 34 :: 58 :: (render j ++ 44 :: renderMembers (m :: l)))
end

variable (cv : JConv ν)

mutual
/-- Trees the example grammar supports: arrays and objects are not empty, strings
and keys are admissible texts, and every number is printed as a numeral that
reads back as the same number. -/
def Supported : Json ν → Prop
  | .null => True
  | .bool _ => True
  | .str s => StrText s ∧ cv.str s = .ok ()
  | .num x => Numeral (showNum x) ∧ cv.num (showNum x) = .ok x
  | .arr l => l ≠ [] ∧ SupportedElems l
  | .obj l => l ≠ [] ∧ SupportedMembers l
/-- every entry -/
def SupportedElems : List (Json ν) → Prop
  | [] => True
  | j :: l => Supported j ∧ SupportedElems l
/-- every member -/
def SupportedMembers : List (List UInt8 × Json ν) → Prop
  | [] => True
  | (k, j) :: l => KeyText k ∧ Supported j ∧ SupportedMembers l
end

end Print

end Neure
