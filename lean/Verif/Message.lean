import Verif.Data
/-!
# The text of an error: `src/err.rs`
-/

namespace Neure

/-- `impl Display for Error`, `src/err.rs:83-151`: what `to_string()` gives.  (`{id}` prints
a `usize` in decimal, `toString` of a natural number.) -/
def Error.message : Error → String
  | .fail => "Fail: always failed"
  | .assertFalse => "AssertFalse: internal pattern match succeeded"
  | .assertTrue => "AssertTrue: internal pattern match failed"
  | .consume => "Consume: remaining data length is insufficient"
  | .slice => "Slice: all slices failed to match"
  | .literal => "Literal: slice failed to match"
  | .anchorEnd => "AnchorEnd: offset is not at the end"
  | .anchorStart => "AnchorStart: offset is not at the beginning"
  | .mutex => "Mutex: mutex lock operation failed"
  | .option => "Option: pattern is `None`, failed to match"
  | .fromStr => "FromStr: call `core::str::parse` failed"
  | .tryInto => "TryInto: call `TryInto::try_into` failed"
  | .selectEq => "SelectEq: elements in the tuple are not equal"
  | .selectNeq => "SelectNeq: elements in the tuple are equal"
  | .bounded => "Bounded: value out of bound"
  | .sepCollect => "SepCollect: number of matched patterns does not meet the requirement"
  | .collect => "Collect: number of matched patterns does not meet the requirement"
  | .separate => "Separate: number of matched patterns does not meet the requirement"
  | .separate2 => "Separate2: number of matched patterns does not meet the requirement"
  | .repeat_ => "Repeat: number of matched patterns does not meet the requirement"
  | .repeat2 => "Repeat2: number of matched patterns does not meet the requirement"
  | .times => "Times: number of matched units does not meet the requirement"
  | .between => "Between: number of matched units does not meet the requirement"
  | .many1 => "Many1: number of matched units does not meet the requirement"
  | .once => "Once: number of matched units does not meet the requirement"
  | .neureThen => "NeureThen: unit failed to match"
  | .array => "Array: all patterns failed to match"
  | .vector => "Vector: all patterns failed to match"
  | .pairArray => "PairArray: all patterns failed to match"
  | .pairVector => "PairVector: all patterns failed to match"
  | .pairSlice => "PairSlice: all patterns failed to match"
  | .outOfBound => "offset out of bound"
  | .utf8Error => "FromUtf8: call `core::str::from_utf8` failed"
  | .fromLeBytes => "FromLeBytes: need more bytes for given type"
  | .fromBeBytes => "FromBeBytes: need more bytes for given type"
  | .fromNeBytes => "FromNeBytes: need more bytes for given type"
  | .uid id => "Got error(id = " ++ toString id ++ ")"

theorem repr_inj {m n : Nat} (h : toString m = toString n) : m = n := by
  have h1 := congrArg String.toList h
  simp only [Nat.toString_eq_ofList_toDigits, String.toList_ofList] at h1
  rw [← Nat.ofDigitChars_ten_toDigits (n := m), h1, Nat.ofDigitChars_ten_toDigits]

theorem message_uid_ne {n : Nat} {s : String} (h : s.toList.head? ≠ some 'G') : (Error.uid n).message ≠ s := by
  rintro rfl
  apply h
  simp [Error.message]

theorem message_uid_inj {m n : Nat} (h : (Error.uid m).message = (Error.uid n).message) : m = n := by
  have h1 := congrArg String.toList h
  simp only [Error.message, String.toList_append, List.append_cancel_right_eq, List.append_cancel_left_eq] at h1
  exact repr_inj (String.toList_inj.mp h1)

/-- Different errors have different texts. -/
theorem message_inj {a b : Error} (h : a.message = b.message) : a = b := by
  cases a <;> cases b <;> first
    | rfl
    | (exact absurd h (by decide))
    | (exact absurd h (message_uid_ne (by decide)))
    | (exact absurd h.symm (message_uid_ne (by decide)))
    | (exact congrArg Error.uid (message_uid_inj h))

end Neure
