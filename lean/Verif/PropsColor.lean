import Verif.Color
import Verif.PropsAttr
import Verif.PropsFind
import Verif.PropsNum
/-!
# C74: the benchmark programs compute what they are compared with
-/

namespace Neure

set_option linter.unusedSectionVars false
set_option linter.unusedSimpArgs false

open Demo

variable {β : Type}

namespace Color

/-! ## Specification -/

/-- The capital hexadecimal digit of a number below 16. -/
def upHex (n : Nat) : Char := if n < 10 then Char.ofNat (48 + n) else Char.ofNat (55 + n)

/-- A byte as two capital hexadecimal digits (Rust's `{:02X}`). -/
def hex2 (n : Nat) : List Char := [upHex (n / 16), upHex (n % 16)]

/-- A colour written as `#RRGGBB`. -/
def print (r g b : Nat) : List Char := '#' :: (hex2 r ++ hex2 g ++ hex2 b)

/-! ## Proof tools -/

theorem hex_digit {c : Char} : isHexDigit c = true ↔ ∃ n, n < 16 ∧ c = upHex n := by
  constructor
  · intro h
    simp only [isHexDigit, Bool.or_eq_true, Bool.and_eq_true, decide_eq_true_eq, Char.le_def, Char.lt_def,
      UInt32.le_iff_toNat_le, UInt32.lt_iff_toNat_lt] at h
    have e0 : ('0' : Char).val.toNat = 48 := rfl
    have e1 : (':' : Char).val.toNat = 58 := rfl
    have e2 : ('A' : Char).val.toNat = 65 := rfl
    have e3 : ('G' : Char).val.toNat = 71 := rfl
    rw [e0, e1, e2, e3] at h
    have hc : c = Char.ofNat c.val.toNat := (Char.ofNat_toNat c).symm
    rcases h with h | h
    · refine ⟨c.val.toNat - 48, by omega, ?_⟩
      rw [upHex, if_pos (by omega), show 48 + (c.val.toNat - 48) = c.val.toNat by omega]; exact hc
    · refine ⟨c.val.toNat - 55, by omega, ?_⟩
      rw [upHex, if_neg (by omega), show 55 + (c.val.toNat - 55) = c.val.toNat by omega]; exact hc
  · rintro ⟨n, hn, rfl⟩
    revert hn; revert n; decide

theorem fromStr_pair : ∀ i, i < 16 → ∀ j, j < 16 →
    fromStrRadix false 8 16 [upHex i, upHex j] = some ((16 * i + j : Nat) : Int) := by decide +kernel

/-- What the two digits in front of a text are worth. -/
theorem hexPrimary_some {x y : List Char} {n : Int} :
    hexPrimary x = some (n, y) ↔ ∃ k : Nat, k < 256 ∧ n = k ∧ x = hex2 k ++ y := by
  constructor
  · intro h
    match x with
    | [] => cases h
    | [_] => cases h
    | a :: b :: z =>
      simp only [hexPrimary, takeWhile22] at h
      by_cases hab : (isHexDigit a && isHexDigit b) = true
      · rw [if_pos hab] at h
        rw [Bool.and_eq_true] at hab
        obtain ⟨i, hi, rfl⟩ := hex_digit.mp hab.1
        obtain ⟨j, hj, rfl⟩ := hex_digit.mp hab.2
        simp only [fromHex, fromStr_pair i hi j hj] at h
        cases h
        exact ⟨16 * i + j, by omega, rfl, by
          simp [hex2, show (16 * i + j) / 16 = i by omega, show (16 * i + j) % 16 = j by omega]⟩
      · rw [if_neg hab] at h; cases h
  · rintro ⟨k, hk, rfl, rfl⟩
    have h1 : isHexDigit (upHex (k / 16)) = true := hex_digit.mpr ⟨_, by omega, rfl⟩
    have h2 : isHexDigit (upHex (k % 16)) = true := hex_digit.mpr ⟨_, by omega, rfl⟩
    simp only [hex2, List.cons_append, List.nil_append, hexPrimary, takeWhile22, h1, h2, Bool.and_self, if_true,
      fromHex, fromStr_pair _ (show k / 16 < 16 by omega) _ (show k % 16 < 16 by omega),
      show 16 * (k / 16) + k % 16 = k by omega]

/-! ### The parser as a valued parsing expression -/

def toByte' : Val CVal → Option (Val CVal)
  | .base (.text l) => (fromStrRadix false 8 16 l).map fun n => .base (.byte n)
  | _ => none

def toColor' : Val CVal → Option (Val CVal)
  | .pair (.base (.byte r)) (.pair (.base (.byte g)) (.base (.byte b))) => some (.base (.color r g b))
  | _ => none

def hexE : VPeg Char CVal := .map toByte' (.text .eps (.rep (.cls isHexDigit) 2 (some 2)))

def parserE : VPeg Char CVal := .after (.lit ['#']) (.map toColor' (.pair hexE (.pair hexE hexE)))

theorem toByte_ok (v w : Val CVal) : toByte v = .ok w ↔ toByte' v = some w := by
  unfold toByte toByte' fromStr
  split <;> simp
  split <;> split at * <;> simp_all

theorem toByte_panic (v : Val CVal) : toByte v ≠ .panic := by
  unfold toByte fromStr
  split
  · split <;> simp
  · simp

theorem toColor_ok (v w : Val CVal) : toColor v = .ok w ↔ toColor' v = some w := by
  unfold toColor toColor'; split <;> simp

theorem toColor_panic (v : Val CVal) : toColor v ≠ .panic := by
  unfold toColor; split <;> simp

theorem hex_as : AsVal .plain G0 hex hexE :=
  .map _ toByte_panic toByte_ok (.leaf trivial (by simp) (.between _ _ _ (C24_fair _ (.inl trivial)) (Nat.le_refl _)))

theorem parser_as : AsVal .plain G0 parser parserE :=
  .pre (.lit _) (.map _ toColor_panic toColor_ok (.thn hex_as (.thn hex_as hex_as)))

theorem textOf_handles (d : List Char) : Handles textOf d (fun t _ => .text t) := by
  intro pre t y o st hd
  have : origSub d (blen pre) (blen t) = .ok t := by rw [hd]; exact origSub_append _ _ _
  simp [textOf, this]

section
variable {R : Nat → Peg Char} {V : Nat → VPeg Char CVal}

theorem yields_hex (x : List Char) : Yields R V (fun t _ => .text t) hexE x
    ((hexPrimary x).map fun p => (.base (.byte p.1), p.2)) := by
  match x with
  | [] => exact .map_fail (.text_no (.seq_ok .eps (.seq_fail .cls_end)))
  | [a] =>
    refine .map_fail (.text_no (.seq_ok .eps ?_))
    by_cases ha : isHexDigit a = true
    · exact .seq_ok (.cls_ok ha) (.seq_fail .cls_end)
    · exact .seq_fail (.cls_no (by simpa using ha))
  | a :: b :: y =>
    by_cases ha : isHexDigit a = true
    · by_cases hb : isHexDigit b = true
      · have hy : Yields R V (fun t _ => CVal.text t) (.text .eps (.rep (.cls isHexDigit) 2 (some 2))) (a :: b :: y)
            (some (.base (.text [a, b]), y)) :=
          .text_ok (t := [a, b]) .eps (.seq_ok (.cls_ok ha) (.seq_ok (.cls_ok hb) .eps))
        simp only [hexPrimary, takeWhile22, ha, hb, Bool.and_self, if_true, fromHex]
        cases h : fromStrRadix false 8 16 [a, b] with
        | none => exact .map_no hy (by simp [toByte', h])
        | some n => exact .map_ok hy (by simp [toByte', h])
      · have hb' : isHexDigit b = false := by simpa using hb
        simp only [hexPrimary, takeWhile22, ha, hb', Bool.and_false, Bool.false_eq_true, if_false]
        exact .map_fail (.text_no (.seq_ok .eps (.seq_ok (.cls_ok ha) (.seq_fail (.cls_no hb')))))
    · have ha' : isHexDigit a = false := by simpa using ha
      simp only [hexPrimary, takeWhile22, ha', Bool.false_and, Bool.false_eq_true, if_false]
      exact .map_fail (.text_no (.seq_ok .eps (.seq_fail (.cls_no ha'))))

theorem yields_parser (x : List Char) : Yields R V (fun t _ => .text t) parserE x
    ((nomColor x).map fun p => (.base (.color p.1.1 p.1.2.1 p.1.2.2), p.2)) := by
  by_cases hx : ∃ y, x = '#' :: y
  · obtain ⟨y, rfl⟩ := hx
    refine .after_ok (ford_lit_ok ['#'] y) ?_
    simp only [nomColor, tagHash, Option.pure_def, Option.bind_eq_bind, Option.bind_some]
    have h1 := yields_hex (R := R) (V := V) y
    cases e1 : hexPrimary y with
    | none => rw [e1] at h1; exact .map_fail (.pair_no1 h1)
    | some p1 =>
      rw [e1] at h1
      have h2 := yields_hex (R := R) (V := V) p1.2
      cases e2 : hexPrimary p1.2 with
      | none => rw [e2] at h2; simp only [Option.bind_some, e2]; exact .map_fail (.pair_no2 h1 (.pair_no1 h2))
      | some p2 =>
        rw [e2] at h2
        have h3 := yields_hex (R := R) (V := V) p2.2
        cases e3 : hexPrimary p2.2 with
        | none =>
          rw [e3] at h3; simp only [Option.bind_some, e2, e3]
          exact .map_fail (.pair_no2 h1 (.pair_no2 h2 h3))
        | some p3 =>
          rw [e3] at h3; simp only [Option.bind_some, e2, e3]
          exact .map_ok (.pair_ok h1 (.pair_ok h2 h3)) rfl
  · have : nomColor x = none := by
      match x with
      | [] => rfl
      | c :: y =>
        have hc : c ≠ '#' := fun h => hx ⟨y, by rw [h]⟩
        have : tagHash (c :: y) = none := by
          unfold tagHash; split
          · rename_i h; cases h; exact absurd rfl hc
          · rfl
        simp [nomColor, this]
    rw [this]
    exact .after_no (ford_lit_no _ _ hx)

end

theorem nomColor_some {x y : List Char} {r g b : Int} :
    nomColor x = some ((r, g, b), y) ↔ ∃ i j k : Nat, i < 256 ∧ j < 256 ∧ k < 256 ∧
      r = i ∧ g = j ∧ b = k ∧ x = print i j k ++ y := by
  have ht : ∀ x y, tagHash x = some y ↔ x = '#' :: y := by
    intro x y; unfold tagHash; split
    · simp
    · rename_i h; simp; rintro rfl; exact h _ rfl
  simp only [nomColor, Option.bind_eq_bind, Option.bind_eq_some_iff, Option.pure_def, Option.some.injEq,
    Prod.mk.injEq, Prod.exists, hexPrimary_some, ht]
  constructor
  · rintro ⟨x1, rfl, _, x2, ⟨i, hi, rfl, rfl⟩, _, x3, ⟨j, hj, rfl, rfl⟩, _, x4, ⟨k, hk, rfl, rfl⟩, ⟨rfl, rfl, rfl⟩, rfl⟩
    exact ⟨i, j, k, hi, hj, hk, rfl, rfl, rfl, by simp [print]⟩
  · rintro ⟨i, j, k, hi, hj, hk, rfl, rfl, rfl, rfl⟩
    exact ⟨_, by simp [print]; try rfl, _, _, ⟨i, hi, rfl, rfl⟩, _, _, ⟨j, hj, rfl, rfl⟩, _, _, ⟨k, hk, rfl, rfl⟩, ⟨rfl, rfl, rfl⟩, rfl⟩

end Color

/-! ## C74 -/

/-- **C74 (colours, against `nom`).** On every text, at every position, the
parser of the benchmark returns the colour that the `nom` parser returns and
leaves the same text; it fails exactly when the `nom` parser fails; it does not
panic. -/
theorem C74_color_nom (pre x : List Char) :
    (∀ v st o', Constructs G0 Color.textOf none (pre ++ x) Color.parser () (blen pre) (.ok v st o') ↔
      ∃ r g b t y, Color.nomColor x = some ((r, g, b), y) ∧ x = t ++ y ∧ v = .base (.color r g b) ∧
        o' = blen pre + blen t) ∧
    ((∃ e st o', Constructs G0 Color.textOf none (pre ++ x) Color.parser () (blen pre) (.err e st o')) ↔
      Color.nomColor x = none) ∧
    ¬ Constructs G0 Color.textOf none (pre ++ x) Color.parser () (blen pre) .panic := by
  obtain ⟨h1, h2, h3, _⟩ := C63_values (G := G0) (R := fun _ => Peg.fail) (V := fun _ => .fail) (fun _ => .inr ⟨rfl, rfl⟩)
    (fun _ => .inr ⟨rfl, rfl⟩) pre x (Color.textOf_handles _) Color.parser_as ()
  have hy := Color.yields_parser (R := fun _ => Peg.fail) (V := fun _ => .fail) x
  refine ⟨fun v st o' => ?_, ?_, h3⟩
  · rw [h1]
    constructor
    · rintro ⟨t, y, hx, h, _, ho⟩
      have := C63_yields_unique hy h
      cases e : Color.nomColor x with
      | none => rw [e] at this; cases this
      | some p => rw [e] at this; cases this; exact ⟨_, _, _, t, _, rfl, hx, rfl, ho⟩
    · rintro ⟨r, g, b, t, y, e, hx, rfl, ho⟩
      rw [e] at hy
      exact ⟨t, y, hx, hy, rfl, ho⟩
  · rw [h2]
    constructor
    · intro h
      have := C63_yields_unique hy h
      simpa using this
    · intro e; rw [e] at hy; exact hy

/-- **C74 (colours).** The parser of the benchmark accepts exactly `#RRGGBB` with
capital hexadecimal digits, returns the three numbers below 256 written there and
ends behind the seventh character. -/
theorem C74_color (pre x : List Char) (v : Val Color.CVal) (st : Unit) (o' : Nat) :
    Constructs G0 Color.textOf none (pre ++ x) Color.parser () (blen pre) (.ok v st o') ↔
      ∃ r g b y, r < 256 ∧ g < 256 ∧ b < 256 ∧ x = Color.print r g b ++ y ∧
        v = .base (.color (r : Nat) (g : Nat) (b : Nat)) ∧ o' = blen pre + 7 := by
  have len : ∀ r g b : Nat, r < 256 → g < 256 → b < 256 → blen (Color.print r g b) = 7 := by
    have one : ∀ n, n < 16 → Item.size (Color.upHex n) = 1 := by decide
    intro r g b hr hg hb
    have h1 := one (r / 16) (by omega); have h2 := one (r % 16) (by omega)
    have h3 := one (g / 16) (by omega); have h4 := one (g % 16) (by omega)
    have h5 := one (b / 16) (by omega); have h6 := one (b % 16) (by omega)
    have h0 : Item.size '#' = 1 := by decide
    simp [Color.print, Color.hex2, blen, h0, h1, h2, h3, h4, h5, h6]
  rw [(C74_color_nom pre x).1]
  constructor
  · rintro ⟨_, _, _, t, y, h, hx, rfl, rfl⟩
    obtain ⟨i, j, k, hi, hj, hk, rfl, rfl, rfl, hx'⟩ := Color.nomColor_some.mp h
    have : t = Color.print i j k := List.append_cancel_right (hx.symm.trans hx')
    exact ⟨i, j, k, y, hi, hj, hk, hx', rfl, by rw [this, len i j k hi hj hk]⟩
  · rintro ⟨r, g, b, y, hr, hg, hb, rfl, rfl, rfl⟩
    exact ⟨_, _, _, Color.print r g b, y, Color.nomColor_some.mpr ⟨r, g, b, hr, hg, hb, rfl, rfl, rfl, rfl⟩, rfl, rfl,
      by rw [len r g b hr hg hb]⟩

/-- Non-vacuity: the benchmark's own input. -/
example : Constructs G0 Color.textOf none "#2F14DF".toList Color.parser () 0 (.ok (.base (.color 47 20 223)) () 7) ∧
    Color.print 47 20 223 = "#2F14DF".toList := by
  have h : Color.print 47 20 223 = "#2F14DF".toList := by decide
  exact ⟨(C74_color [] _ _ _ _).mpr ⟨47, 20, 223, [], by decide, by decide, by decide, by rw [h]; rfl, rfl, rfl⟩, h⟩

/-! ### `find` -/

namespace FindBench

theorem strFind_some {f : Char → Bool} {s : List Char} {k : Nat} :
    strFind f s = some k ↔ ∃ pre c y, s = pre ++ c :: y ∧ (∀ a ∈ pre, f a = false) ∧ f c = true ∧ k = blen pre := by
  induction s generalizing k with
  | nil => simp [strFind]
  | cons a s ih =>
    simp only [strFind]
    by_cases h : f a = true
    · rw [if_pos h]
      constructor
      · intro hk; cases hk; exact ⟨[], a, s, rfl, by simp, h, rfl⟩
      · rintro ⟨pre, c, y, hs, hp, hc, rfl⟩
        cases pre with
        | nil => rfl
        | cons b pre =>
          cases hs; have := hp a (by simp); rw [h] at this; cases this
    · rw [if_neg h, Option.map_eq_some_iff]
      constructor
      · rintro ⟨k', hk', rfl⟩
        obtain ⟨pre, c, y, rfl, hp, hc, rfl⟩ := ih.mp hk'
        refine ⟨a :: pre, c, y, rfl, ?_, hc, by simp [blen, Nat.add_comm]⟩
        intro b hb
        rcases List.mem_cons.mp hb with rfl | hb
        · simpa using h
        · exact hp b hb
      · rintro ⟨pre, c, y, hs, hp, hc, rfl⟩
        cases pre with
        | nil => cases hs; exact absurd hc h
        | cons b pre =>
          cases hs
          exact ⟨blen pre, ih.mpr ⟨pre, c, y, rfl, fun x hx => hp x (by simp [hx]), hc, rfl⟩, by simp [blen, Nat.add_comm]⟩

theorem strFind_none {f : Char → Bool} {s : List Char} : strFind f s = none ↔ ∀ a ∈ s, f a = false := by
  induction s with
  | nil => simp [strFind]
  | cons a s ih =>
    simp only [strFind]
    by_cases h : f a = true
    · simp [h]
    · simp [h, ih]

theorem find_unique {ι α : Type} [Item ι] {G : Rules ι β} {pol : Option (Pat ι β)} {d : List ι} {p : Pat ι β}
    {x : Extract ι α} {o : Nat} {r r'} (h : Finds G pol d p x o r) (h' : Finds G pol d p x o r') : r = r' := by
  obtain ⟨n, h⟩ := h
  obtain ⟨m, h'⟩ := h'
  have hm := findLoop_mono (len := blen d) (func := findProc) (h := x.invoke d) (fun o => tryMat_mono G pol d p o) o
  have h1 := hm n (max n m) (Nat.le_max_left _ _) _ h
  have h2 := hm m (max n m) (Nat.le_max_right _ _) _ h'
  exact Option.some.inj (h1.symm.trans h2)

section
variable {G : Rules Char β} (f : Char → Bool) (s : List Char)

theorem once_at (pre x : List Char) :
    (∀ sp o', Runs G none (pre ++ x) (.once (.pred f) .empty) (blen pre) (.ok sp o') ↔
      ∃ c y, x = c :: y ∧ f c = true ∧ sp = ⟨blen pre, Item.size c⟩ ∧ o' = blen pre + Item.size c) ∧
    (Fails G none (pre ++ x) (.once (.pred f) .empty) (blen pre) ↔ ∀ c y, x = c :: y → f c = false) := by
  obtain ⟨r, hf, res, hp, hs⟩ := pegLeaf_once (G := G) (R := fun _ => Peg.fail) (.pred f) pre x
  have hp' : Runs G none (pre ++ x) (.once (.pred f) .empty) (blen pre) res := hp
  cases x with
  | nil =>
    cases hf
    obtain ⟨e, he⟩ := hs
    subst he
    exact ⟨fun sp o' => ⟨fun h => (by cases parses_unique hp h), by rintro ⟨_, _, h, _⟩; cases h⟩,
      fun _ _ _ h => (by cases h), fun _ => ⟨_, _, hp'⟩⟩
  | cons c y =>
    by_cases hc : f c = true
    · cases hf.unique (.cls_ok hc)
      obtain ⟨t, ht, rfl⟩ := hs
      have : t = [c] := List.append_cancel_right (show t ++ y = [c] ++ y from ht.symm)
      subst this
      refine ⟨fun sp o' => ⟨fun h => ?_, ?_⟩, ?_, fun h => ?_⟩
      · cases parses_unique hp h; exact ⟨c, y, rfl, hc, by simp [blen], by simp [blen]⟩
      · rintro ⟨_, _, h, _, rfl, rfl⟩; cases h; simpa [blen] using hp'
      · rintro ⟨e, o', h⟩; cases parses_unique hp h
      · have := h c y rfl; rw [hc] at this; cases this
    · have hc' : f c = false := by simpa using hc
      cases hf.unique (.cls_no hc')
      obtain ⟨e, he⟩ := hs
      subst he
      refine ⟨fun sp o' => ⟨fun h => (by cases parses_unique hp h), ?_⟩, fun hF c' y' h => ?_, fun _ => ⟨_, _, hp'⟩⟩
      · rintro ⟨_, _, h, h', _⟩; cases h; exact absurd h' hc
      · cases h; exact hc'

/-- At a position that is not between two characters the pattern fails. -/
theorem once_between {d : List Char} {j : Nat} (h : dropB d j = none) :
    Fails G none d (.once (.pred f) .empty) j := by
  have hp : peek d j = .err .outOfBound := by
    have hs : Item.strict Char = false := rfl
    unfold peek origAt; rw [h, hs]; rfl
  exact ⟨.outOfBound, j, runs_plain.mpr (parses_iff.mpr (by rw [parseL_once, onceParse, hp]; rfl))⟩

theorem noHit_iff (j : Nat) : NoHit G none s (.once (.pred f) .empty) j ↔
    ∀ pre c y, s = pre ++ c :: y → blen pre = j → f c = false := by
  cases h : dropB s j with
  | none =>
    refine ⟨fun _ pre c y hs hj => ?_, fun _ => .inl (once_between f h)⟩
    rw [hs, ← hj, dropB_append] at h; cases h
  | some x =>
    obtain ⟨pre, rfl, rfl⟩ := dropB_eq_some.mp h
    have key : ∀ pre' c y, pre ++ x = pre' ++ c :: y → blen pre' = blen pre → x = c :: y := by
      intro pre' c y he hb
      have h' : dropB (pre ++ x) (blen pre) = some (c :: y) := by rw [he, ← hb]; exact dropB_append _ _
      rw [h] at h'; exact Option.some.inj h'
    constructor
    · rintro (hf | ⟨sp, o', hr, h0⟩) pre' c y he hb
      · exact (once_at f pre x).2.mp hf c y (key pre' c y he hb)
      · obtain ⟨c, y, _, _, rfl, _⟩ := ((once_at f pre x).1 _ _).mp hr
        have := Item.size_pos c; simp only at h0; omega
    · intro hh
      exact .inl ((once_at f pre x).2.mpr fun c y hx => hh pre c y (by rw [hx]) rfl)

end

end FindBench

/-- **C74 (`find`).** Looking for one character of a class finds the first one:
the span is that character, the position behind it; if there is none, nothing is
found and the position is the end of the text. -/
theorem C74_find (f : Char → Bool) (s : List Char) (o' : Nat) :
    (∀ sp, Finds (β := β) G0 none s (.once (.pred f) .empty) .span 0 (.ok (some sp) o') ↔
      ∃ pre c y, s = pre ++ c :: y ∧ (∀ a ∈ pre, f a = false) ∧ f c = true ∧ sp = ⟨blen pre, Item.size c⟩ ∧
        o' = blen pre + Item.size c) ∧
    (Finds (β := β) G0 none s (.once (.pred f) .empty) .span 0 (.ok none o') ↔
      (∀ a ∈ s, f a = false) ∧ o' = blen s) := by
  have hT : All (β := β) G0 Tidy (.once (.pred f) (.empty : Cond Char β)) :=
    All.intro trivial fun _ hc => absurd hc id
  obtain ⟨h1, h2⟩ := C28_find_leftmost (x := .span) hT extractable_span (d := s) 0 o'
  refine ⟨fun sp => ?_, ?_⟩
  · rw [h1]
    constructor
    · rintro ⟨k, sp', ⟨_, hk, hj, hr, hn⟩, he⟩
      cases he
      cases hd : dropB s k with
      | none =>
        obtain ⟨e, o1, hf⟩ := FindBench.once_between (G := G0) f hd
        cases parses_unique hr hf
      | some x =>
        obtain ⟨pre, rfl, rfl⟩ := dropB_eq_some.mp hd
        obtain ⟨c, y, rfl, hc, rfl, rfl⟩ := ((FindBench.once_at f pre x).1 _ _).mp hr
        refine ⟨pre, c, y, rfl, ?_, hc, rfl, rfl⟩
        intro a ha
        obtain ⟨l, r, rfl⟩ := List.append_of_mem ha
        refine (FindBench.noHit_iff f _ (blen l)).mp (hj (blen l) (Nat.zero_le _) ?_) l a (r ++ c :: y) (by simp) rfl
        have := Item.size_pos a
        simp only [blen_append, blen_cons]; omega
    · rintro ⟨pre, c, y, rfl, hp, hc, rfl, rfl⟩
      have hs := Item.size_pos c
      refine ⟨blen pre, _, ⟨Nat.zero_le _, by simp only [blen_append, blen_cons]; omega, fun j _ hj => ?_,
        ((FindBench.once_at f pre (c :: y)).1 _ _).mpr ⟨c, y, rfl, hc, rfl, rfl⟩, by simp only; omega⟩, rfl⟩
      refine (FindBench.noHit_iff f _ j).mpr fun pre' a y' he hb => ?_
      subst hb
      refine hp a ?_
      rcases List.append_eq_append_iff.mp he with ⟨l, rfl, h⟩ | ⟨l, rfl, h⟩
      · simp only [blen_append] at hj; omega
      · cases l with
        | nil => simp at hj
        | cons b l => cases h; simp
  · rw [h2]
    constructor
    · rintro ⟨hj, rfl⟩
      refine ⟨fun a ha => ?_, by simp⟩
      obtain ⟨l, r, rfl⟩ := List.append_of_mem ha
      have := Item.size_pos a
      exact (FindBench.noHit_iff f _ (blen l)).mp (hj (blen l) (Nat.zero_le _)
        (by simp only [blen_append, blen_cons]; omega)) l a r rfl rfl
    · rintro ⟨h, rfl⟩
      refine ⟨fun j _ _ => (FindBench.noHit_iff f _ j).mpr fun pre c y hs _ => h c (by simp [hs]), by simp⟩

/-- **C74 (`find`, against `str::find`).** The benchmark's two searches agree on
every text: `find` returns a span exactly when `str::find` returns an index, and
the span begins there. -/
theorem C74_find_str (f : Char → Bool) (s : List Char) :
    (∃ o', Finds (β := β) G0 none s (.once (.pred f) .empty) .span 0
      (.ok ((FindBench.strFind f s).map fun k => ⟨k, (((dropB s k).bind List.head?).map Item.size).getD 0⟩) o')) ∧
    ∀ res, Finds (β := β) G0 none s (.once (.pred f) .empty) .span 0 res →
      ∃ r o', res = .ok r o' ∧ r.map Span.beg = FindBench.strFind f s := by
  have hex : ∃ r o', Finds (β := β) G0 none s (.once (.pred f) .empty) .span 0 (.ok r o') ∧
      r = (FindBench.strFind f s).map fun k => ⟨k, (((dropB s k).bind List.head?).map Item.size).getD 0⟩ := by
    cases h : FindBench.strFind f s with
    | none => exact ⟨none, _, (C74_find f s _).2.mpr ⟨FindBench.strFind_none.mp h, rfl⟩, rfl⟩
    | some k =>
      obtain ⟨pre, c, y, rfl, hp, hc, rfl⟩ := FindBench.strFind_some.mp h
      refine ⟨_, _, ((C74_find f _ _).1 _).mpr ⟨pre, c, y, rfl, hp, hc, rfl, rfl⟩, ?_⟩
      simp [dropB_append]
  obtain ⟨r, o', hr, he⟩ := hex
  refine ⟨⟨o', he ▸ hr⟩, fun res h => ?_⟩
  have : res = .ok r o' := FindBench.find_unique h hr
  subst this
  refine ⟨r, o', rfl, ?_⟩
  rw [he]; cases FindBench.strFind f s <;> rfl

/-- Non-vacuity: punctuation and a two-byte character before the letter. -/
example : Finds (β := Nat) G0 none "{ é\"a".toList (.once (.pred Char.isAlphanum) .empty) .span 0 (.ok (some ⟨5, 1⟩) 6) ∧
    FindBench.strFind Char.isAlphanum "{ é\"a".toList = some 5 := ⟨⟨20, by decide +kernel⟩, by decide⟩

end Neure
