import Verif.PropsComb
/-!
# Strings as UTF-8

The model of a `str` context is a list of characters with byte widths.  The
program holds the UTF-8 bytes and slices them with `str::get`, which checks
`is_char_boundary`, and compares them with `str::starts_with`.  This file
describes those byte-level operations.
-/

namespace Neure

set_option linter.unusedSectionVars false

/-- The bytes of a string. -/
def utf8 (l : List Char) : List UInt8 := l.flatMap String.utf8EncodeChar

/-- std `u8::is_utf8_char_boundary`: `(b as i8) >= -0x40`, i.e. the byte is not
of the form `10xxxxxx`. -/
def startsChar (b : UInt8) : Bool := b < 0x80 || 0xc0 ≤ b

/-- std `str::is_char_boundary`. -/
def isCharBoundary (b : List UInt8) (i : Nat) : Bool :=
  if i = 0 then true else match b[i]? with
    | some x => startsChar x
    | none => i == b.length

/-- std `str::get(i..)`, on the bytes. -/
def strFrom (b : List UInt8) (i : Nat) : Option (List UInt8) :=
  if isCharBoundary b i then some (b.drop i) else none

/-- std `str::get(i..j)`, on the bytes. -/
def strSlice (b : List UInt8) (i j : Nat) : Option (List UInt8) :=
  if i ≤ j ∧ isCharBoundary b i = true ∧ isCharBoundary b j = true then some ((b.drop i).take (j - i)) else none

/-! ## Lemmas -/

@[simp] theorem utf8_nil : utf8 [] = [] := rfl

theorem utf8_cons (c : Char) (l : List Char) : utf8 (c :: l) = String.utf8EncodeChar c ++ utf8 l := rfl

theorem utf8_append (l m : List Char) : utf8 (l ++ m) = utf8 l ++ utf8 m := by
  simp [utf8]

theorem utf8_length (l : List Char) : (utf8 l).length = blen l := by
  induction l with
  | nil => rfl
  | cons c l ih => rw [utf8_cons, List.length_append, ih, String.length_utf8EncodeChar, blen]; rfl

theorem blen_bytes (l : List UInt8) : blen l = l.length := by
  induction l with
  | nil => rfl
  | cons c l ih => rw [blen, ih, List.length_cons]; show 1 + _ = _; omega

theorem encodeChar_ne_nil (c : Char) : String.utf8EncodeChar c ≠ [] := by
  intro h
  have := String.length_utf8EncodeChar c
  rw [h] at this
  have := c.utf8Size_pos
  simp_all

/-- UTF-8 is self-synchronising on the left: the first character is determined
by the bytes. -/
theorem utf8_head_inj {c c' : Char} {b b' : List UInt8}
    (h : String.utf8EncodeChar c ++ b = String.utf8EncodeChar c' ++ b') : c = c' := by
  have h1 := ByteArray.utf8DecodeChar?_utf8EncodeChar_append (b := b.toByteArray) (c := c)
  have h2 := ByteArray.utf8DecodeChar?_utf8EncodeChar_append (b := b'.toByteArray) (c := c')
  rw [← List.toByteArray_append] at h1 h2
  rw [h, h2] at h1
  exact (Option.some.inj h1).symm

theorem utf8_prefix {l m : List Char} : utf8 l <+: utf8 m ↔ l <+: m := by
  constructor
  · intro h
    induction l generalizing m with
    | nil => exact List.nil_prefix
    | cons c l ih =>
      obtain ⟨t, ht⟩ := h
      cases m with
      | nil =>
        rw [utf8_cons] at ht
        have := encodeChar_ne_nil c
        simp_all [utf8]
      | cons c' m =>
        rw [utf8_cons, utf8_cons, List.append_assoc] at ht
        cases utf8_head_inj ht
        obtain ⟨s, hs⟩ := ih ⟨t, List.append_cancel_left ht⟩
        exact ⟨s, by rw [List.cons_append, hs]⟩
  · rintro ⟨t, rfl⟩
    exact ⟨utf8 t, (utf8_append l t).symm⟩

theorem utf8_inj {l m : List Char} (h : utf8 l = utf8 m) : l = m := by
  have h1 : l <+: m := utf8_prefix.mp (h ▸ List.prefix_rfl)
  have h2 : m <+: l := utf8_prefix.mp (h ▸ List.prefix_rfl)
  exact h1.eq_of_length (Nat.le_antisymm h1.length_le h2.length_le)

theorem startsChar_ofNat {n : Nat} (h : n < 256) : startsChar (UInt8.ofNat n) = (decide (n < 128) || decide (192 ≤ n)) := by
  simp [startsChar, UInt8.lt_iff_toNat_lt, UInt8.le_iff_toNat_le, Nat.mod_eq_of_lt h]

/-- The first byte of an encoded character starts it, the others do not. -/
theorem encodeChar_shape (c : Char) : ∃ b t, String.utf8EncodeChar c = b :: t ∧ startsChar b = true ∧
    ∀ x ∈ t, startsChar x = false := by
  have hc : c.val.toNat < 0x110000 := by
    have := c.valid
    simp only [UInt32.isValidChar, Nat.isValidChar] at this
    omega
  unfold String.utf8EncodeChar
  dsimp only
  split
  · refine ⟨_, _, rfl, ?_, by simp⟩
    rw [startsChar_ofNat (by omega), decide_eq_true (by omega)]; rfl
  · split
    · refine ⟨_, _, rfl, ?_, ?_⟩
      · rw [startsChar_ofNat (by omega)]; simp
      · intro x hx
        simp only [List.mem_singleton] at hx
        subst hx
        rw [startsChar_ofNat (by omega)]; simp; omega
    · split
      · refine ⟨_, _, rfl, ?_, ?_⟩
        · rw [startsChar_ofNat (by omega)]; simp
        · intro x hx
          simp only [List.mem_cons, List.not_mem_nil, or_false] at hx
          rcases hx with rfl | rfl <;> (rw [startsChar_ofNat (by omega)]; simp; omega)
      · refine ⟨_, _, rfl, ?_, ?_⟩
        · rw [startsChar_ofNat (by omega)]; simp
        · intro x hx
          simp only [List.mem_cons, List.not_mem_nil, or_false] at hx
          rcases hx with rfl | rfl | rfl <;> (rw [startsChar_ofNat (by omega)]; simp; omega)

/-- A byte offset is a character boundary of the bytes iff it is one in the
model. -/
theorem boundary_iff (d : List Char) (o : Nat) :
    isCharBoundary (utf8 d) o = true ↔ ∃ pre rest, d = pre ++ rest ∧ blen pre = o := by
  induction d generalizing o with
  | nil =>
    cases o with
    | zero => simp [isCharBoundary]
    | succ n =>
      simp [isCharBoundary]
  | cons c d ih =>
    obtain ⟨b, t, he, hb, ht⟩ := encodeChar_shape c
    have hlen : t.length + 1 = c.utf8Size := by
      rw [← String.length_utf8EncodeChar, he]; rfl
    have hcons : (∃ pre rest, c :: d = pre ++ rest ∧ blen pre = o) ↔
        o = 0 ∨ (c.utf8Size ≤ o ∧ ∃ pre rest, d = pre ++ rest ∧ blen pre = o - c.utf8Size) := by
      constructor
      · rintro ⟨pre, rest, h1, h2⟩
        cases pre with
        | nil => exact .inl h2.symm
        | cons x pre =>
          cases h1
          have h2 : c.utf8Size + blen pre = o := h2
          exact .inr ⟨by omega, pre, rest, rfl, by omega⟩
      · rintro (rfl | ⟨h1, pre, rest, rfl, h2⟩)
        · exact ⟨[], _, rfl, rfl⟩
        · refine ⟨c :: pre, rest, rfl, ?_⟩
          show c.utf8Size + blen pre = o
          omega
    rw [hcons]
    by_cases h0 : o = 0
    · simp [h0, isCharBoundary]
    by_cases hs : c.utf8Size ≤ o
    · have hrest : isCharBoundary (utf8 (c :: d)) o = isCharBoundary (utf8 d) (o - c.utf8Size) := by
        have hg : (utf8 (c :: d))[o]? = (utf8 d)[o - c.utf8Size]? := by
          rw [utf8_cons, List.getElem?_append_right (by simpa using hs), String.length_utf8EncodeChar]
        have hl : (utf8 (c :: d)).length = c.utf8Size + (utf8 d).length := by
          rw [utf8_cons, List.length_append, String.length_utf8EncodeChar]
        unfold isCharBoundary
        rw [if_neg h0, hg, hl]
        by_cases he' : o - c.utf8Size = 0
        · rw [if_pos he', he']
          cases d with
          | nil => simp; omega
          | cons c' d =>
            obtain ⟨b', t', he2, hb', -⟩ := encodeChar_shape c'
            simp [utf8_cons, he2, hb']
        · rw [if_neg he']
          cases (utf8 d)[o - c.utf8Size]? with
          | some x => rfl
          | none => rw [Bool.eq_iff_iff]; simp; omega
      rw [hrest, ih]
      simp [h0, hs]
    · have : isCharBoundary (utf8 (c :: d)) o = false := by
        unfold isCharBoundary
        rw [if_neg h0]
        obtain ⟨k, rfl⟩ : ∃ k, o = k + 1 := ⟨o - 1, by omega⟩
        have hk : k < t.length := by omega
        rw [utf8_cons, he, List.cons_append, List.getElem?_cons_succ, List.getElem?_append_left hk,
          List.getElem?_eq_getElem hk]
        exact ht _ (List.getElem_mem hk)
      rw [this]
      simp [h0, hs]

theorem dropB_utf8 (d : List Char) (o : Nat) : (dropB d o).map utf8 = strFrom (utf8 d) o := by
  unfold strFrom
  cases h : dropB d o with
  | some rest =>
    obtain ⟨pre, rfl, rfl⟩ := dropB_eq_some.mp h
    rw [if_pos ((boundary_iff _ _).mpr ⟨pre, rest, rfl, rfl⟩), utf8_append, ← utf8_length]
    simp
  | none =>
    rw [if_neg]
    · rfl
    · intro hb
      obtain ⟨pre, rest, rfl, rfl⟩ := (boundary_iff _ _).mp hb
      rw [dropB_append] at h
      cases h

theorem origSub_utf8 (d : List Char) (o n : Nat) :
    (match origSub d o n with | .ok l => some (utf8 l) | _ => none) = strSlice (utf8 d) o (o + n) := by
  unfold strSlice
  cases h : origSub d o n with
  | ok r =>
    obtain ⟨pre, post, rfl, rfl, rfl⟩ := origSub_ok.mp h
    rw [if_pos ⟨by omega, (boundary_iff _ _).mpr ⟨pre, r ++ post, by simp, rfl⟩,
      (boundary_iff _ _).mpr ⟨pre ++ r, post, rfl, by simp⟩⟩]
    rw [utf8_append, utf8_append, ← utf8_length, ← utf8_length, List.append_assoc]
    simp
  | err e =>
    rw [if_neg]
    rintro ⟨-, h1, h2⟩
    obtain ⟨r, hr, -⟩ := origSub_of_valid ((boundary_iff d o).mp h1) ((boundary_iff d (o + n)).mp h2)
    rw [hr] at h; cases h
  | panic =>
    unfold origSub at h
    split at h
    · cases h
    · split at h <;> cases h

end Neure
