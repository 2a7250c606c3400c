import Verif.Json
import Verif.Utf8
/-!
# The JSON parsers of the benchmark, `bench/json.rs`

Two variants of `examples/json.rs`: `neure_json_zero` (lines 119-183) keeps slices
of the input, `neure_json` (lines 45-117) makes `String`s.  They are written down
here as they stand in the program, next to `jsonRules` of `Json.lean`, with what
they share with the example.

A `str` or `String` is represented by its bytes, so `Json` (lines 5-13) and
`JsonZero` (lines 15-23) are both `Json` of `Json.lean`.  `dyn_box`, `rc` and
`clone` only forward and are not represented.
-/

namespace Neure.BenchJson

set_option linter.unusedSectionVars false

/-- The bytes are the UTF-8 encoding of some characters. -/
def Utf8Text (t : List UInt8) : Prop := ∃ cs, t = utf8 cs

theorem utf8Text_iff {t : List UInt8} : t.toByteArray.IsValidUTF8 ↔ Utf8Text t := by
  constructor
  · rintro ⟨m, hm⟩
    exact ⟨m, List.toByteArray_inj.mp hm⟩
  · rintro ⟨m, rfl⟩
    exact ⟨m, rfl⟩

instance {t : List UInt8} : Decidable (Utf8Text t) := decidable_of_iff _ utf8Text_iff

section Grammar
variable {ν : Type} (parseF64 : List UInt8 → Option ν)

/-! ## `neure_json_zero` -/

/-- `to_digit`, lines 175-181 (and `examples/json.rs:67-73`), without the `Num` wrapper:
`str::from_utf8` accepts the encodings of characters, `f64::from_str` is an
arbitrary function `parseF64`. -/
def toDigit (l : List UInt8) : Except Error ν :=
  if Utf8Text l then
    match parseF64 l with
    | some x => .ok x
    | none => .error .fromStr
  else .error .utf8Error

/-- `regex!((b'+', b'-'){0,1})`, line 132: the unit `never().or(b'+').or(b'-')`
between 0 and 1 times, `src/macro.rs:113-115` (`count::<0, 1>`). -/
def zSign : Pat UInt8 (JVal ν) := .between 0 1 (.or (.or .never (.item 43)) (.item 45)) .empty

/-- `sign.then(digit).then(dec.or(regex::empty()))`, lines 133-135. -/
def zNumText : Pat UInt8 (JVal ν) := .thn (.thn zSign jDigit) (.or jDec .empty)

/-- `num.pat()` mapped by `to_digit`, line 136. -/
def zNum : Pat UInt8 (JVal ν) :=
  .map (.pat zNumText) fun
    | .base (.slice l) => match toDigit parseF64 l with
      | .ok x => .ok (.base (.json (.num x)))
      | .error e => .err e
    | _ => .panic

/-- `str_val.enclose(b"\"", b"\"")` mapped to `JsonZero::Str`, lines 138-149. -/
def zStr : Pat UInt8 (JVal ν) :=
  .map (.enclose (.lit [34]) (escapeStrval 34 92 jEscape) (.lit [34])) fun
    | .base (.slice l) => .ok (.base (.json (.str l)))
    | _ => .panic

/-- `num.or(str.or(bool_t.or(bool_f.or(empty.or(ctor.clone())))))` with white space
around, lines 131, 151-156; the literals as in the example. -/
def zEle : Pat UInt8 (JVal ν) :=
  .pre jWs (.suf (.or (zNum parseF64) (.or zStr (.or jTrue (.or jFalse (.or jEmpty (.cell 0)))))) jWs)

/-- `obj.or(array)`, lines 158-168. -/
def zRules : Rules UInt8 (JVal ν)
  | 0 => some (.or
      (.map (.enclose (.lit [123]) (.sep (.sepOnce jKey (.lit [58]) (zEle parseF64)) (.lit [44]) true 1) (.lit [125]))
        fun v => match toMembers v with
          | some l => .ok (.base (.json (.obj l)))
          | none => .panic)
      (.map (.enclose (.lit [91]) (.sep (zEle parseF64) (.lit [44]) true 1) (.lit [93]))
        fun v => match toElems v with
          | some l => .ok (.base (.json (.arr l)))
          | none => .panic))
  | _ => none

/-- `neure_json_zero::JsonParser::parse`, lines 129-173, returns `r`. -/
def ZeroParse (d : List UInt8) (r : CRes Unit (Val (JVal ν))) : Prop :=
  Constructs (zRules parseF64) jsonH none d (.cell 0) () 0 r

/-! ## `neure_json` -/

/-- `to_str`, lines 54-56. -/
def toStr : Val (JVal ν) → Out (Val (JVal ν))
  | .base (.slice l) => if Utf8Text l then .ok (.base (.slice l)) else .err .utf8Error
  | _ => .panic

/-- `map::from_str::<f64>()`, line 69; `src/map.rs:143-186`.  The `f64` is represented
by the `Json::Num` that it becomes. -/
def fromStrF64 : Val (JVal ν) → Out (Val (JVal ν))
  | .base (.slice l) => match parseF64 l with
    | some x => .ok (.base (.json (.num x)))
    | none => .err .fromStr
  | _ => .panic

/-- `map::from_str::<String>()`, lines 86 and 100: a `String` of any `str` (std
`String::from_str` does not fail). -/
def fromStrString : Val (JVal ν) → Out (Val (JVal ν))
  | .base (.slice l) => .ok (.base (.slice l))
  | _ => .panic

/-- `Json::Num`, line 70 (already applied, see `fromStrF64`). -/
def mkNum (v : Val (JVal ν)) : Out (Val (JVal ν)) := .ok v

/-- `|v| Ok(Json::Str(v))`, line 87. -/
def mkStr : Val (JVal ν) → Out (Val (JVal ν))
  | .base (.slice l) => .ok (.base (.json (.str l)))
  | _ => .panic

/-- `b'+'.or(b'-').opt()`, line 62. -/
def aSign : Pat UInt8 (JVal ν) := .optU (.or (.item 43) (.item 45)) .empty

/-- `sign.then(digit).then(dec.or(regex::empty()))`, lines 63-65. -/
def aNumText : Pat UInt8 (JVal ν) := .thn (.thn aSign jDigit) (.or jDec .empty)

/-- `num.pat().try_map(to_str).try_map(map::from_str::<f64>()).map(Json::Num)`, lines 66-71. -/
def aNum : Pat UInt8 (JVal ν) := .map (.map (.map (.pat aNumText) toStr) (fromStrF64 parseF64)) mkNum

/-- `b'\r'.or(b'\t').or(b'\n').or(b'\\').or(b'\"')`, line 73. -/
def aEscape : Neu UInt8 := .or (.or (.or (.or (.item 13) (.item 9)) (.item 10)) (.item 92)) (.item 34)

/-- The string, lines 74-89: the mappers are inside the quotes. -/
def aStr : Pat UInt8 (JVal ν) :=
  .enclose (.lit [34]) (.map (.map (.map (escapeStrval 34 92 aEscape) toStr) fromStrString) mkStr) (.lit [34])

/-- `num.or(str.or(bool_t.or(bool_f.or(empty.or(ctor.clone())))))` with white space
around, lines 61, 91-96; the literals as in the example. -/
def aEle : Pat UInt8 (JVal ν) :=
  .pre jWs (.suf (.or (aNum parseF64) (.or aStr (.or jTrue (.or jFalse (.or jEmpty (.cell 0)))))) jWs)

/-- The key, lines 98-102: mapped inside the quotes. -/
def aKey : Pat UInt8 (JVal ν) :=
  .pre jWs (.suf (.enclose (.lit [34]) (.map (.map (.many1 jKeyUnit .empty) toStr) fromStrString) (.lit [34])) jWs)

/-- `obj.or(array)`, lines 103-110. -/
def aRules : Rules UInt8 (JVal ν)
  | 0 => some (.or
      (.map (.enclose (.lit [123]) (.sep (.sepOnce aKey (.lit [58]) (aEle parseF64)) (.lit [44]) true 1) (.lit [125]))
        fun v => match toMembers v with
          | some l => .ok (.base (.json (.obj l)))
          | none => .panic)
      (.map (.enclose (.lit [91]) (.sep (aEle parseF64) (.lit [44]) true 1) (.lit [93]))
        fun v => match toElems v with
          | some l => .ok (.base (.json (.arr l)))
          | none => .panic))
  | _ => none

/-- `neure_json::JsonParser::parse`, lines 59-115, returns `r`. -/
def AllocParse (d : List UInt8) (r : CRes Unit (Val (JVal ν))) : Prop :=
  Constructs (aRules parseF64) jsonH none d (.cell 0) () 0 r

/-! ## What they should do -/

/-- Numbers as in the example, and strings must be UTF-8. -/
def allocConv : JConv ν := ⟨toDigit parseF64, fun t => if Utf8Text t then .ok () else .error .utf8Error⟩

end Grammar

mutual
/-- Every string in the tree is UTF-8 (keys always are). -/
def StrsUtf8 {ν : Type} : Json ν → Prop
  | .str s => Utf8Text s
  | .arr l => ElemsUtf8 l
  | .obj l => MembersUtf8 l
  | _ => True
/-- The same for every entry. -/
def ElemsUtf8 {ν : Type} : List (Json ν) → Prop
  | [] => True
  | j :: l => StrsUtf8 j ∧ ElemsUtf8 l
/-- The same for every member. -/
def MembersUtf8 {ν : Type} : List (List UInt8 × Json ν) → Prop
  | [] => True
  | (_, j) :: l => StrsUtf8 j ∧ MembersUtf8 l
end

end Neure.BenchJson
