import Verif.Classes
import Verif.PropsUnit
import Verif.PropsUtf8
/-!
# C59: character classes

The classes are compared with the characters themselves, written out.
-/

namespace Neure

set_option linter.unusedSectionVars false
set_option linter.unusedSimpArgs false

/-! ## Specification: the members, in full -/

namespace Chars

def digits : List Char := "0123456789".toList
def lower : List Char := "abcdefghijklmnopqrstuvwxyz".toList
def upper : List Char := "ABCDEFGHIJKLMNOPQRSTUVWXYZ".toList
def hex : List Char := "0123456789abcdefABCDEF".toList
def punctuation : List Char := "!\"#$%&'()*+,-./:;<=>?@[\\]^_`{|}~".toList
/-- Space, tab, line feed, carriage return, form feed. -/
def blanks : List Char := [' ', '\t', '\n', '\r', Char.ofNat 0x0C]
/-- The 33 control characters of ASCII. -/
def controls : List Char := Char.ofNat 127 :: (List.range 32).map Char.ofNat

/-- The digits of a radix: the first of `0…9`, `a…z` and the capitals of those
that are letters. -/
def ofRadix (r : Nat) : List Char :=
  (digits ++ lower).take r ++ upper.take (r - 10)

end Chars

/-- The bytes of a list of ASCII characters. -/
def byteOf (c : Char) : UInt8 := UInt8.ofNat c.toNat

/-! ## Proof tools -/

theorem mem_of_code {f : Nat → Bool} {l : List Char}
    (h1 : ∀ n, n < 128 → (f n = true ↔ n ∈ l.map Char.toNat)) (h2 : ∀ n, 128 ≤ n → f n = false)
    (h3 : ∀ x ∈ l, x.toNat < 128) (c : Char) : f c.toNat = true ↔ c ∈ l := by
  by_cases hc : c.toNat < 128
  · rw [h1 _ hc, List.mem_map]
    constructor
    · rintro ⟨x, hx, he⟩; rwa [← Char.toNat_inj.mp he]
    · exact fun h => ⟨c, h, rfl⟩
  · rw [h2 _ (by omega)]
    constructor
    · intro h; cases h
    · intro h; exact absurd (h3 c h) hc

theorem byte_of_code {f : Nat → Bool} {l : List Char}
    (h1 : ∀ n, n < 128 → (f n = true ↔ n ∈ l.map Char.toNat)) (h2 : ∀ n, 128 ≤ n → f n = false)
    (h3 : ∀ x ∈ l, x.toNat < 128) (b : UInt8) : f b.toNat = true ↔ b ∈ l.map byteOf := by
  have key : b ∈ l.map byteOf ↔ b.toNat ∈ l.map Char.toNat := by
    simp only [List.mem_map]
    constructor
    · rintro ⟨x, hx, rfl⟩
      refine ⟨x, hx, ?_⟩
      have := h3 x hx
      simp only [byteOf, UInt8.toNat_ofNat']; omega
    · rintro ⟨x, hx, he⟩
      refine ⟨x, hx, ?_⟩
      have := h3 x hx
      apply UInt8.toNat_inj.mp
      simp only [byteOf, UInt8.toNat_ofNat']; omega
  rw [key]
  by_cases hc : b.toNat < 128
  · exact h1 _ hc
  · rw [h2 _ (by omega)]
    constructor
    · intro h; cases h
    · intro h
      obtain ⟨x, hx, he⟩ := List.mem_map.mp h
      have := h3 x hx
      omega

/-- `u` accepts exactly the characters of `l`; on bytes `v` accepts exactly their
bytes. -/
def Accepts (u : Neu Char) (v : Neu UInt8) (l : List Char) : Prop :=
  (∀ c, u.isMatch c = true ↔ c ∈ l) ∧ (∀ b, v.isMatch b = true ↔ b ∈ l.map byteOf)

theorem accepts_of_code {f : Nat → Bool} {l : List Char}
    (h1 : ∀ n, n < 128 → (f n = true ↔ n ∈ l.map Char.toNat)) (h2 : ∀ n, 128 ≤ n → f n = false)
    (h3 : ∀ x ∈ l, x.toNat < 128) : Accepts (Unit.byCode f) (Unit.byCode f) l :=
  ⟨mem_of_code h1 h2 h3, byte_of_code h1 h2 h3⟩

macro "code_class" : tactic =>
  `(tactic| (refine accepts_of_code (by decide +kernel) ?_ (by decide +kernel)
             intro n hn
             simp [Unit.codeDigit, Unit.codeUpper, Unit.codeLower, Unit.within]
             try omega))

/-- **C59 (ASCII classes).** Each `ascii_*` class accepts exactly the characters it
is named after, on strings, and exactly their bytes, on byte slices: nothing
beyond ASCII in either case. -/
theorem C59_ascii_classes :
    Accepts Unit.asciiDigit Unit.asciiDigit Chars.digits ∧
    Accepts Unit.asciiLowercase Unit.asciiLowercase Chars.lower ∧
    Accepts Unit.asciiUppercase Unit.asciiUppercase Chars.upper ∧
    Accepts Unit.asciiAlphabetic Unit.asciiAlphabetic (Chars.lower ++ Chars.upper) ∧
    Accepts Unit.asciiAlphanumeric Unit.asciiAlphanumeric (Chars.digits ++ Chars.lower ++ Chars.upper) ∧
    Accepts Unit.asciiHexdigit Unit.asciiHexdigit Chars.hex ∧
    Accepts Unit.asciiPunctuation Unit.asciiPunctuation Chars.punctuation ∧
    Accepts Unit.asciiGraphic Unit.asciiGraphic
      (Chars.digits ++ Chars.lower ++ Chars.upper ++ Chars.punctuation) ∧
    Accepts Unit.asciiWhitespace Unit.asciiWhitespace Chars.blanks ∧
    Accepts Unit.asciiControl Unit.asciiControl Chars.controls ∧
    Accepts Unit.ascii Unit.ascii
      (' ' :: Chars.digits ++ Chars.lower ++ Chars.upper ++ Chars.punctuation ++ Chars.controls) ∧
    Accepts Unit.word Unit.word ('_' :: Chars.digits ++ Chars.lower ++ Chars.upper) := by
  refine ⟨?_, ?_, ?_, ?_, ?_, ?_, ?_, ?_, ?_, ?_, ?_, ?_⟩ <;> code_class

/-- `c` is a digit of value `v` in radix `r`. -/
def IsDigit (r : Nat) (c : Char) (v : Nat) : Prop :=
  v < r ∧ ((Chars.digits ++ Chars.lower)[v]? = some c ∨ (Chars.digits ++ Chars.upper)[v]? = some c)

theorem toDigit_high (r n : Nat) (h : 128 ≤ n) : Unit.toDigit r n = none := by
  have h1 : Unit.codeDigit n = false := by simp [Unit.codeDigit, Unit.within]; omega
  have h2 : Unit.codeLower n = false := by simp [Unit.codeLower, Unit.within]; omega
  have h3 : Unit.codeUpper n = false := by simp [Unit.codeUpper, Unit.within]; omega
  simp [Unit.toDigit, h1, h2, h3]

theorem digit_chars : ∀ x ∈ Chars.digits ++ Chars.lower ++ Chars.upper, x.toNat < 128 := by decide +kernel

theorem toDigit_table : ∀ n, n < 128 → ∀ v, v < 36 →
    (Unit.toDigit 36 n = some v ↔
      (((Chars.digits ++ Chars.lower)[v]?).map Char.toNat = some n ∨
       ((Chars.digits ++ Chars.upper)[v]?).map Char.toNat = some n)) := by decide +kernel

theorem toDigit_36 (r n v : Nat) (hr : r ≤ 36) :
    Unit.toDigit r n = some v ↔ v < r ∧ Unit.toDigit 36 n = some v := by
  unfold Unit.toDigit
  simp only [Option.bind_eq_some_iff]
  constructor
  · rintro ⟨a, ha, h⟩
    split at h
    · cases h; exact ⟨by assumption, v, ha, by rw [if_pos (by omega)]⟩
    · cases h
  · rintro ⟨hv, a, ha, h⟩
    split at h
    · cases h; exact ⟨v, ha, by rw [if_pos hv]⟩
    · cases h

/-- **C59 (digit values).** `char::to_digit`, as used by `digit(radix)` and by
`from_str_radix`. -/
theorem C59_digit_value (r : Nat) (hr : r ≤ 36) (c : Char) (v : Nat) :
    Unit.toDigit r c.toNat = some v ↔ IsDigit r c v := by
  rw [toDigit_36 r _ v hr]
  unfold IsDigit
  refine and_congr_right fun hv => ?_
  by_cases hc : c.toNat < 128
  · rw [toDigit_table _ hc v (by omega)]
    have inj : ∀ o : Option Char, o.map Char.toNat = some c.toNat ↔ o = some c := by
      intro o
      cases o with
      | none => simp
      | some x => simpa using Char.toNat_inj
    rw [inj, inj]
  · rw [toDigit_high _ _ (by omega)]
    constructor
    · intro h; cases h
    · intro h
      exfalso
      have : c ∈ Chars.digits ++ Chars.lower ++ Chars.upper := by
        simp only [List.mem_append]
        rcases h with h | h
        · have := List.mem_of_getElem? h
          simp only [List.mem_append] at this
          exact .inl this
        · have := List.mem_of_getElem? h
          simp only [List.mem_append] at this
          rcases this with h | h
          · exact .inl (.inl h)
          · exact .inr h
      exact hc (digit_chars c this)

example : IsDigit 16 'f' 15 ∧ IsDigit 16 'F' 15 ∧ ¬ IsDigit 8 '8' 8 := by
  refine ⟨⟨by decide, by decide⟩, ⟨by decide, by decide⟩, fun h => absurd h.1 (by decide)⟩

/-- **C59 (`digit(radix)`).** For a radix from 2 to 36, `digit(radix)` accepts
exactly the characters that are digits of that radix, in either case. -/
theorem C59_digit (r : Nat) (hr : r ≤ 36) (c : Char) :
    ((Unit.digit r).isMatch c = true ↔ c ∈ Chars.ofRadix r) ∧
    ((Unit.digit r).isMatch c = true ↔ ∃ v, IsDigit r c v) := by
  have h2 : (Unit.digit r).isMatch c = true ↔ ∃ v, IsDigit r c v := by
    simp only [← C59_digit_value r hr]
    show (Unit.toDigit r c.toNat).isSome = true ↔ _
    rw [Option.isSome_iff_exists]
  refine ⟨?_, h2⟩
  rw [h2]
  have hl : Chars.digits.length = 10 := by decide
  constructor
  · rintro ⟨v, hv, h⟩
    simp only [Chars.ofRadix, List.mem_append]
    rcases h with h | h
    · exact .inl (List.mem_of_getElem? (i := v) (by rw [List.getElem?_take, if_pos hv]; exact h))
    · rw [List.getElem?_append] at h
      split at h
      · refine .inl (List.mem_of_getElem? (i := v) ?_)
        rw [List.getElem?_take, if_pos hv, List.getElem?_append, if_pos (by assumption)]; exact h
      · refine .inr (List.mem_of_getElem? (i := v - 10) ?_)
        rw [List.getElem?_take, if_pos (by omega)]
        rw [hl] at h; exact h
  · intro h
    simp only [Chars.ofRadix, List.mem_append] at h
    rcases h with h | h
    · obtain ⟨v, h⟩ := List.getElem?_of_mem h
      rw [List.getElem?_take] at h
      split at h
      · exact ⟨v, by assumption, .inl h⟩
      · cases h
    · obtain ⟨v, h⟩ := List.getElem?_of_mem h
      rw [List.getElem?_take] at h
      split at h
      · refine ⟨v + 10, by omega, .inr ?_⟩
        rw [List.getElem?_append, if_neg (by omega), hl]
        exact h
      · cases h

/-- In particular `digit(10)` is `ascii_digit` and `digit(16)` is `ascii_hexdigit`. -/
theorem C59_digit_10_16 (c : Char) :
    (Unit.digit 10).isMatch c = (Unit.asciiDigit : Neu Char).isMatch c ∧
    (Unit.digit 16).isMatch c = (Unit.asciiHexdigit : Neu Char).isMatch c := by
  have e : ∀ a b : Bool, (a = true ↔ b = true) → a = b := by decide
  constructor
  · apply e
    rw [(C59_digit 10 (by decide) c).1, C59_ascii_classes.1.1]
    rw [show Chars.ofRadix 10 = Chars.digits by decide +kernel]
  · apply e
    rw [(C59_digit 16 (by decide) c).1, C59_ascii_classes.2.2.2.2.2.1.1]
    rw [show Chars.ofRadix 16 = Chars.hex by decide +kernel]

/-- **C59 (`wild`).** Everything but the line feed. -/
theorem C59_wild (c : Char) : Unit.wild.isMatch c = true ↔ c ≠ '\n' := by
  simp [Unit.wild, Neu.isMatch]

/-- The 25 characters with the Unicode property `White_Space`. -/
def Chars.unicodeBlanks : List Char :=
  [0x09, 0x0A, 0x0B, 0x0C, 0x0D, 0x20, 0x85, 0xA0, 0x1680, 0x2000, 0x2001, 0x2002, 0x2003, 0x2004,
    0x2005, 0x2006, 0x2007, 0x2008, 0x2009, 0x200A, 0x2028, 0x2029, 0x202F, 0x205F, 0x3000].map Char.ofNat

/-- **C59 (`whitespace`, `control`).** `whitespace` accepts the Unicode white
space; `control` the ASCII control characters and U+0080 to U+009F. -/
theorem C59_whitespace_control (c : Char) :
    (Unit.whitespace.isMatch c = true ↔ c ∈ Chars.unicodeBlanks) ∧
    (Unit.control.isMatch c = true ↔ c ∈ Chars.controls ∨ 0x80 ≤ c.toNat ∧ c.toNat ≤ 0x9F) := by
  constructor
  · have : c ∈ Chars.unicodeBlanks ↔ c.toNat ∈ Chars.unicodeBlanks.map Char.toNat := by
      rw [List.mem_map]
      exact ⟨fun h => ⟨c, h, rfl⟩, fun ⟨x, hx, he⟩ => Char.toNat_inj.mp he ▸ hx⟩
    rw [this, show Chars.unicodeBlanks.map Char.toNat = [0x09, 0x0A, 0x0B, 0x0C, 0x0D, 0x20, 0x85, 0xA0,
      0x1680, 0x2000, 0x2001, 0x2002, 0x2003, 0x2004, 0x2005, 0x2006, 0x2007, 0x2008, 0x2009, 0x200A,
      0x2028, 0x2029, 0x202F, 0x205F, 0x3000] by decide +kernel]
    have key : Item.key c = c.toNat := rfl
    simp only [Unit.whitespace, Unit.byCode, Neu.isMatch, key, Unit.within, Bool.or_eq_true,
      Bool.and_eq_true, decide_eq_true_eq, List.mem_cons, List.not_mem_nil, or_false]
    omega
  · rw [← C59_ascii_classes.2.2.2.2.2.2.2.2.2.1.1]
    show (Unit.within 0 31 c.toNat || Unit.within 127 159 c.toNat) = true ↔
      (Unit.within 0 31 c.toNat || decide (c.toNat = 127)) = true ∨ _
    simp only [Unit.within, Bool.or_eq_true, Bool.and_eq_true, decide_eq_true_eq]
    omega

/-- The two notions of white space differ inside ASCII, by the vertical tab. -/
theorem C59_ascii_whitespace_vs_whitespace (c : Char) (h : c.toNat < 128) :
    Unit.whitespace.isMatch c = true ↔
      (Unit.asciiWhitespace : Neu Char).isMatch c = true ∨ c = Char.ofNat 0x0B := by
  have hv : c = Char.ofNat 0x0B ↔ c.toNat = 11 := by
    rw [← Char.toNat_inj]; rfl
  rw [hv]
  have key : Item.key c = c.toNat := rfl
  simp only [Unit.whitespace, Unit.asciiWhitespace, Unit.byCode, Neu.isMatch, key, Unit.within,
    Bool.or_eq_true, Bool.and_eq_true, decide_eq_true_eq]
  omega

/-- **C59 (strings and bytes).** Every class that exists for both item types
accepts an ASCII character on a string iff it accepts its byte on a byte slice,
and nothing else on either. -/
theorem C59_classes_agree {f : Nat → Bool} (h : ∀ n, 128 ≤ n → f n = false) :
    UnitSim false (Unit.byCode f) (Unit.byCode f) where
  ascii c hc := by
    show f c.toNat = f (UInt8.ofNat c.toNat).toNat
    rw [UInt8.toNat_ofNat', Nat.mod_eq_of_lt (by omega)]
  wide c hc := h _ hc
  high b hb := h _ hb
  len := rfl

theorem C59_ascii_classes_agree :
    UnitSim false Unit.asciiDigit Unit.asciiDigit ∧ UnitSim false Unit.asciiLowercase Unit.asciiLowercase ∧
    UnitSim false Unit.asciiUppercase Unit.asciiUppercase ∧
    UnitSim false Unit.asciiAlphabetic Unit.asciiAlphabetic ∧
    UnitSim false Unit.asciiAlphanumeric Unit.asciiAlphanumeric ∧
    UnitSim false Unit.asciiHexdigit Unit.asciiHexdigit ∧
    UnitSim false Unit.asciiPunctuation Unit.asciiPunctuation ∧
    UnitSim false Unit.asciiGraphic Unit.asciiGraphic ∧
    UnitSim false Unit.asciiWhitespace Unit.asciiWhitespace ∧
    UnitSim false Unit.asciiControl Unit.asciiControl ∧ UnitSim false Unit.ascii Unit.ascii ∧
    UnitSim false Unit.word Unit.word := by
  refine ⟨?_, ?_, ?_, ?_, ?_, ?_, ?_, ?_, ?_, ?_, ?_, ?_⟩ <;>
    exact C59_classes_agree fun n hn => by
      simp [Unit.codeDigit, Unit.codeUpper, Unit.codeLower, Unit.within]
      try omega

/-- `ascii_digit().many1()` takes the same bytes of "42é" on the string and on
its bytes. -/
example : PatSim (β := Nat) (β' := Nat) (· = ·) (.many1 Unit.asciiDigit .empty) (.many1 Unit.asciiDigit .empty) ∧
    Runs (β := Nat) (fun _ => none) none ['4', '2', 'é'] (.many1 Unit.asciiDigit .empty) 0 (.ok ⟨0, 2⟩ 2) :=
  ⟨.many1 C59_ascii_classes_agree.1 .empty, ⟨1, by decide⟩⟩

end Neure
