import Verif.NumText
import Verif.PropsClass
import Verif.PropsCtorBase
/-!
# C60: numbers from text
-/

namespace Neure

set_option linter.unusedSectionVars false
set_option linter.unusedSimpArgs false

open Demo

/-! ## Specification -/

/-- The digits `l`, read in radix `r`, are the number `n`: the first digit counts
`r` to the number of digits after it. -/
def Denotes (r : Nat) : List Char → Nat → Prop
  | [], n => n = 0
  | c :: l, n => ∃ v m, IsDigit r c v ∧ Denotes r l m ∧ n = v * r ^ l.length + m

/-- The text `t` is a way to write the integer `v` in radix `r`: at least one
digit, an optional sign; `-` only for types that have negative values. -/
def Writes (signed : Bool) (r : Nat) (t : List Char) (v : Int) : Prop :=
  ∃ ds n, ds ≠ [] ∧ Denotes r ds n ∧
    ((t = ds ∧ v = n) ∨ (t = '+' :: ds ∧ v = n) ∨ (signed = true ∧ t = '-' :: ds ∧ v = -(n : Int)))

/-- The values of an integer type of the given width. -/
def InType (signed : Bool) (bits : Nat) (v : Int) : Prop :=
  if signed then -2 ^ (bits - 1) ≤ v ∧ v < 2 ^ (bits - 1) else 0 ≤ v ∧ v < 2 ^ bits

/-! ## Proof tools -/

theorem Denotes.bound {r : Nat} (hr : 1 ≤ r) : ∀ {l : List Char} {n : Nat}, Denotes r l n → n < r ^ l.length
  | [], n, h => by simp only [Denotes] at h; subst h; simp
  | c :: l, n, ⟨v, m, hv, hm, hn⟩ => by
    have := Denotes.bound hr hm
    subst hn
    have h1 : v + 1 ≤ r := hv.1
    have h2 := Nat.mul_le_mul_right (r ^ l.length) h1
    rw [List.length_cons, Nat.pow_succ, Nat.mul_comm (r ^ l.length)]
    rw [Nat.add_mul, Nat.one_mul] at h2
    omega

theorem addDigits_pos {r : Nat} (hr : 1 ≤ r) (hr' : r ≤ 36) {lo hi : Int} (hlo : lo ≤ 0) :
    ∀ (l : List Char) (a : Nat), (a : Int) ≤ hi → ∀ v,
    (addDigits r lo hi false (a : Int) l = some v ↔
      ∃ n, Denotes r l n ∧ v = ((a * r ^ l.length + n : Nat) : Int) ∧ v ≤ hi)
  | [], a, ha, v => by
    simp only [addDigits, Option.some.injEq, Denotes, List.length_nil, Nat.pow_zero, Nat.mul_one]
    constructor
    · rintro rfl; exact ⟨0, rfl, by simp, ha⟩
    · rintro ⟨n, rfl, h, _⟩; simpa using h.symm
  | c :: l, a, ha, v => by
    have hpow : 1 ≤ r ^ l.length := Nat.one_le_pow _ _ hr
    simp only [addDigits, addDigit, Option.bind_eq_some_iff]
    constructor
    · rintro ⟨x, hx, h⟩
      split at hx
      · cases hx
      · next w hw =>
        simp only [Bool.false_eq_true, if_false] at hx
        split at hx
        · split at hx
          · next h1 h2 =>
            cases hx
            have e : (a : Int) * r + w = ((a * r + w : Nat) : Int) := by push_cast; rfl
            rw [e] at h h2
            obtain ⟨n, hn, hv, hle⟩ := (addDigits_pos hr hr' hlo l (a * r + w) h2.2 v).mp h
            refine ⟨w * r ^ l.length + n, ⟨w, n, (C59_digit_value r hr' c w).mp hw, hn, rfl⟩, ?_, hle⟩
            rw [hv]; congr 1
            rw [Nat.add_mul, List.length_cons, Nat.pow_succ, Nat.mul_assoc, Nat.mul_comm (r ^ l.length)]
            omega
          · cases hx
        · cases hx
    · rintro ⟨_, ⟨w, n, hw, hn, rfl⟩, hv, hle⟩
      have e2 : a * r ^ (c :: l).length + (w * r ^ l.length + n) = (a * r + w) * r ^ l.length + n := by
        rw [Nat.add_mul, List.length_cons, Nat.pow_succ, Nat.mul_assoc, Nat.mul_comm (r ^ l.length)]
        omega
      rw [e2] at hv
      have hge : a * r + w ≤ (a * r + w) * r ^ l.length := Nat.le_mul_of_pos_right _ hpow
      have hb : ((a * r + w : Nat) : Int) ≤ hi := by omega
      have e : (a : Int) * r + w = ((a * r + w : Nat) : Int) := by push_cast; rfl
      have e' : (a : Int) * r = ((a * r : Nat) : Int) := by push_cast; rfl
      refine ⟨((a * r + w : Nat) : Int), ?_, ?_⟩
      · rw [(C59_digit_value r hr' c w).mpr hw]
        simp only [Bool.false_eq_true, if_false]
        rw [if_pos (by rw [e']; omega), if_pos (by rw [e]; omega), e]
      · exact (addDigits_pos hr hr' hlo l (a * r + w) hb v).mpr ⟨n, hn, hv, hle⟩

theorem addDigits_neg {r : Nat} {lo hi : Int} : ∀ (l : List Char) (acc : Int),
    addDigits r lo hi true acc l = (addDigits r (-hi) (-lo) false (-acc) l).map (- ·)
  | [], acc => by simp [addDigits]
  | c :: l, acc => by
    simp only [addDigits, addDigit]
    cases Unit.toDigit r c.toNat with
    | none => rfl
    | some v =>
      simp only [if_true, Bool.false_eq_true, if_false]
      have e1 : -acc * (r : Int) = -(acc * r) := by rw [Int.neg_mul]
      have c1 : (-hi ≤ -(acc * (r : Int)) ∧ -(acc * (r : Int)) ≤ -lo) ↔
          (lo ≤ acc * (r : Int) ∧ acc * (r : Int) ≤ hi) := by omega
      have c2 : (-hi ≤ -(acc * (r : Int)) + v ∧ -(acc * (r : Int)) + v ≤ -lo) ↔
          (lo ≤ acc * (r : Int) - v ∧ acc * (r : Int) - v ≤ hi) := by omega
      rw [e1]
      simp only [c1, c2]
      by_cases h1 : lo ≤ acc * (r : Int) ∧ acc * (r : Int) ≤ hi
      · rw [if_pos h1, if_pos h1]
        by_cases h2 : lo ≤ acc * (r : Int) - v ∧ acc * (r : Int) - v ≤ hi
        · rw [if_pos h2, if_pos h2]
          simp only [Option.bind_some]
          rw [addDigits_neg l]
          rw [show -(acc * (r : Int) - v) = -(acc * (r : Int)) + v by omega]
        · rw [if_neg h2, if_neg h2]; rfl
      · rw [if_neg h1, if_neg h1]; rfl

theorem not_digit_sign (r : Nat) (v : Nat) (hr : r ≤ 36) : ¬ IsDigit r '+' v ∧ ¬ IsDigit r '-' v := by
  rw [← C59_digit_value r hr, ← C59_digit_value r hr]
  simp [Unit.toDigit, Unit.codeDigit, Unit.codeLower, Unit.codeUpper, Unit.within]

theorem intMax_nonneg (signed : Bool) (bits : Nat) : 0 ≤ intMax signed bits := by
  unfold intMax
  have h1 : (1 : Int) ≤ 2 ^ (bits - 1) := by
    have : 1 ≤ 2 ^ (bits - 1) := Nat.one_le_two_pow
    exact_mod_cast this
  have h2 : (1 : Int) ≤ 2 ^ bits := by
    have : 1 ≤ 2 ^ bits := Nat.one_le_two_pow
    exact_mod_cast this
  split <;> omega

theorem intMin_nonpos (signed : Bool) (bits : Nat) : intMin signed bits ≤ 0 := by
  unfold intMin
  have h1 : (1 : Int) ≤ 2 ^ (bits - 1) := by
    have : 1 ≤ 2 ^ (bits - 1) := Nat.one_le_two_pow
    exact_mod_cast this
  split <;> omega

theorem inType_iff (signed : Bool) (bits : Nat) (v : Int) :
    InType signed bits v ↔ intMin signed bits ≤ v ∧ v ≤ intMax signed bits := by
  unfold InType intMin intMax
  split <;> omega

/-! ## The mapper -/

/-- **C60.** `from_str_radix` (with radix 10: `from_str`) turns a text into the
integer it writes, if that is a value of the type; every other text — empty, a
lone sign, any character that is not a digit, a value out of range — is an
error. -/
theorem C60_from_str_radix (signed : Bool) (bits r : Nat) (h2 : 2 ≤ r) (h36 : r ≤ 36) (t : List Char) (v : Int) :
    fromStrRadix signed bits r t = some v ↔ Writes signed r t v ∧ InType signed bits v := by
  rw [inType_iff]
  have hmx := intMax_nonneg signed bits
  have hmn := intMin_nonpos signed bits
  -- the two readings
  have pos : ∀ ds : List Char, addDigits r (intMin signed bits) (intMax signed bits) false 0 ds = some v ↔
      ∃ n, Denotes r ds n ∧ v = (n : Int) ∧ v ≤ intMax signed bits := by
    intro ds
    have := addDigits_pos (by omega : 1 ≤ r) h36 hmn ds 0 hmx v
    simp only [Nat.zero_mul, Nat.zero_add] at this
    exact this
  have neg : ∀ ds : List Char, addDigits r (intMin signed bits) (intMax signed bits) true 0 ds = some v ↔
      ∃ n, Denotes r ds n ∧ v = -(n : Int) ∧ intMin signed bits ≤ v := by
    intro ds
    rw [addDigits_neg, Option.map_eq_some_iff]
    have := addDigits_pos (lo := -intMax signed bits) (hi := -intMin signed bits) (by omega : 1 ≤ r) h36
      (by omega) ds 0 (by omega)
    simp only [Nat.zero_mul, Nat.zero_add] at this
    simp only [Int.neg_zero, show ((0 : Nat) : Int) = 0 from rfl] at this ⊢
    constructor
    · rintro ⟨w, hw, rfl⟩
      obtain ⟨n, hn, rfl, hle⟩ := (this w).mp hw
      exact ⟨n, hn, rfl, by omega⟩
    · rintro ⟨n, hn, rfl, hle⟩
      exact ⟨n, (this _).mpr ⟨n, hn, rfl, by omega⟩, rfl⟩
  have nosign : ∀ (ds : List Char) (n : Nat), ¬ Denotes r ('+' :: ds) n ∧ ¬ Denotes r ('-' :: ds) n := by
    intro ds n
    exact ⟨fun ⟨w, _, h, _⟩ => (not_digit_sign r w h36).1 h, fun ⟨w, _, h, _⟩ => (not_digit_sign r w h36).2 h⟩
  unfold fromStrRadix Writes
  simp only
  split
  · -- empty
    constructor
    · intro h; cases h
    · rintro ⟨⟨ds, n, hne, _, h⟩, _⟩
      rcases h with ⟨rfl, _⟩ | ⟨h, _⟩ | ⟨_, h, _⟩
      · exact absurd rfl hne
      · cases h
      · cases h
  · -- a lone '+'
    constructor
    · intro h; cases h
    · rintro ⟨⟨ds, n, hne, hd, h⟩, _⟩
      rcases h with ⟨rfl, _⟩ | ⟨h, _⟩ | ⟨_, h, _⟩
      · exact absurd hd (nosign _ _).1
      · injection h with _ h; exact absurd h.symm hne
      · injection h with h _; exact absurd h (by decide)
  · -- a lone '-'
    constructor
    · intro h; cases h
    · rintro ⟨⟨ds, n, hne, hd, h⟩, _⟩
      rcases h with ⟨rfl, _⟩ | ⟨h, _⟩ | ⟨_, h, _⟩
      · exact absurd hd (nosign _ _).2
      · injection h with h _; exact absurd h (by decide)
      · injection h with _ h; exact absurd h.symm hne
  · -- '+' and more
    next rest hrest =>
    rw [pos]
    constructor
    · rintro ⟨n, hn, hv, hle⟩
      exact ⟨⟨rest, n, hrest, hn, .inr (.inl ⟨rfl, hv⟩)⟩, by omega, hle⟩
    · rintro ⟨⟨ds, n, hne, hd, h⟩, _, hle⟩
      rcases h with ⟨rfl, _⟩ | ⟨h, hv⟩ | ⟨_, h, _⟩
      · exact absurd hd (nosign _ _).1
      · injection h with _ h; subst h; exact ⟨n, hd, hv, hle⟩
      · injection h with h _; exact absurd h (by decide)
  · -- '-' and more
    next rest hrest =>
    cases signed with
    | true =>
      rw [if_pos rfl, neg]
      constructor
      · rintro ⟨n, hn, hv, hle⟩
        exact ⟨⟨rest, n, hrest, hn, .inr (.inr ⟨rfl, rfl, hv⟩)⟩, hle, by omega⟩
      · rintro ⟨⟨ds, n, hne, hd, h⟩, hle, _⟩
        rcases h with ⟨rfl, _⟩ | ⟨h, hv⟩ | ⟨_, h, hv⟩
        · exact absurd hd (nosign _ _).2
        · injection h with h _; exact absurd h (by decide)
        · injection h with _ h; subst h; exact ⟨n, hd, hv, hle⟩
    | false =>
      rw [if_neg (by decide), pos]
      constructor
      · rintro ⟨n, hn, _⟩; exact absurd hn (nosign _ _).2
      · rintro ⟨⟨ds, n, hne, hd, h⟩, hle, _⟩
        rcases h with ⟨rfl, _⟩ | ⟨h, hv⟩ | ⟨h, _⟩
        · exact absurd hd (nosign _ _).2
        · injection h with h _; exact absurd h (by decide)
        · cases h
  · -- no sign
    next hn1 hn2 hn3 hn4 hn5 =>
    rw [pos]
    constructor
    · rintro ⟨n, hn, hv, hle⟩
      exact ⟨⟨t, n, hn1, hn, .inl ⟨rfl, hv⟩⟩, by omega, hle⟩
    · rintro ⟨⟨ds, n, hne, hd, h⟩, _, hle⟩
      rcases h with ⟨rfl, hv⟩ | ⟨h, hv⟩ | ⟨_, h, _⟩
      · exact ⟨n, hd, hv, hle⟩
      · subst h; exact absurd rfl (hn4 ds)
      · subst h; exact absurd rfl (hn5 ds)

example : Writes true 10 "-128".toList (-128) ∧ InType true 8 (-128) ∧ ¬ InType true 8 128 := by
  refine ⟨⟨"128".toList, 128, by decide, ?_, .inr (.inr ⟨rfl, by decide, by decide⟩)⟩, ?_, ?_⟩
  · exact ⟨1, 28, ⟨by decide, by decide⟩, ⟨2, 8, ⟨by decide, by decide⟩,
      ⟨8, 0, ⟨by decide, by decide⟩, rfl, by decide⟩, by decide⟩, by decide⟩
  · simp [InType]
  · simp [InType]

theorem Denotes.snoc {r : Nat} : ∀ {l : List Char} {n : Nat} {c : Char} {v : Nat},
    Denotes r l n → IsDigit r c v → Denotes r (l ++ [c]) (n * r + v)
  | [], n, c, v, h, hv => by
    simp only [Denotes] at h; subst h
    exact ⟨v, 0, hv, rfl, by simp⟩
  | x :: l, n, c, v, ⟨w, m, hw, hm, hn⟩, hv => by
    refine ⟨w, m * r + v, hw, Denotes.snoc hm hv, ?_⟩
    subst hn
    show _ = w * r ^ (l ++ [c]).length + _
    rw [List.length_append, List.length_singleton, Nat.pow_succ, Nat.add_mul, Nat.mul_assoc]
    omega

theorem isDigit_digitChar {r v : Nat} (hr : r ≤ 16) (hv : v < r) : IsDigit r (Nat.digitChar v) v := by
  refine ⟨hv, .inl ?_⟩
  have : ∀ v, v < 16 → (Chars.digits ++ Chars.lower)[v]? = some (Nat.digitChar v) := by decide +kernel
  exact this v (by omega)

theorem denotes_toDigits {r : Nat} (h2 : 2 ≤ r) (h16 : r ≤ 16) (n : Nat) : Denotes r (Nat.toDigits r n) n := by
  induction n using Nat.strongRecOn with
  | ind n ih =>
    by_cases hn : n < r
    · rw [Nat.toDigits_of_lt_base hn]
      exact ⟨n, 0, isDigit_digitChar h16 hn, rfl, by simp⟩
    · rw [Nat.toDigits_of_base_le (by omega) (by omega)]
      have h := (ih (n / r) (Nat.div_lt_self (by omega) (by omega))).snoc
        (isDigit_digitChar h16 (Nat.mod_lt n (by omega)))
      have e : n / r * r + n % r = n := by rw [Nat.mul_comm]; exact Nat.div_add_mod n r
      rwa [e] at h

theorem toDigits_ne_nil {r : Nat} (h2 : 2 ≤ r) (n : Nat) : Nat.toDigits r n ≠ [] := by
  by_cases hn : n < r
  · rw [Nat.toDigits_of_lt_base hn]; simp
  · rw [Nat.toDigits_of_base_le (by omega) (by omega)]; simp

/-- **C60 (round trip).** Printing a value of the type and reading it back gives
the value: unsigned values, values with a sign, in every radix the printer has
(2 to 16). -/
theorem C60_round_trip (signed : Bool) (bits r : Nat) (h2 : 2 ≤ r) (h16 : r ≤ 16) (n : Nat) :
    (InType signed bits n → fromStrRadix signed bits r (Nat.toDigits r n) = some (n : Int)) ∧
    (InType signed bits n → fromStrRadix signed bits r ('+' :: Nat.toDigits r n) = some (n : Int)) ∧
    (signed = true → InType signed bits (-n) →
      fromStrRadix signed bits r ('-' :: Nat.toDigits r n) = some (-(n : Int))) := by
  refine ⟨fun h => ?_, fun h => ?_, fun hs h => ?_⟩
  · exact (C60_from_str_radix signed bits r h2 (by omega) _ _).mpr
      ⟨⟨_, n, toDigits_ne_nil h2 n, denotes_toDigits h2 h16 n, .inl ⟨rfl, rfl⟩⟩, h⟩
  · exact (C60_from_str_radix signed bits r h2 (by omega) _ _).mpr
      ⟨⟨_, n, toDigits_ne_nil h2 n, denotes_toDigits h2 h16 n, .inr (.inl ⟨rfl, rfl⟩)⟩, h⟩
  · exact (C60_from_str_radix signed bits r h2 (by omega) _ _).mpr
      ⟨⟨_, n, toDigits_ne_nil h2 n, denotes_toDigits h2 h16 n, .inr (.inr ⟨hs, rfl, rfl⟩)⟩, h⟩

/-- `i32`: `2147483647` is read, `2147483648` is too large, its negative is not. -/
example : InType true 32 (2147483647 : Nat) ∧ ¬ InType true 32 (2147483648 : Nat) ∧
    InType true 32 (-(2147483648 : Nat)) := by
  simp [InType]

/-! ## The pattern -/

/-- `run` is the maximal run of digits at the front of `rest`. -/
def DigitRun (r : Nat) (rest run : List Char) : Prop :=
  ∃ tl, rest = run ++ tl ∧ (∀ c ∈ run, ∃ v, IsDigit r c v) ∧ (∀ c tl', tl = c :: tl' → ¬ ∃ v, IsDigit r c v)

theorem digitRun_takeWhile {r : Nat} (h36 : r ≤ 36) (rest : List Char) :
    DigitRun r rest (rest.takeWhile (Unit.digit r).isMatch) := by
  refine ⟨rest.dropWhile (Unit.digit r).isMatch, (List.takeWhile_append_dropWhile).symm, ?_, ?_⟩
  · intro c hc
    exact (C59_digit r h36 c).2.mp (List.all_eq_true.mp List.all_takeWhile c hc)
  · intro c tl' hc
    rw [← (C59_digit r h36 c).2]
    have := List.head?_dropWhile_not (Unit.digit r).isMatch rest
    rw [hc] at this
    simpa using this

theorem digitRun_unique {r : Nat} (h36 : r ≤ 36) {rest run : List Char} (h : DigitRun r rest run) :
    run = rest.takeWhile (Unit.digit r).isMatch := by
  obtain ⟨tl, rfl, h1, h2⟩ := h
  induction run with
  | nil =>
    cases tl with
    | nil => rfl
    | cons c tl' =>
      have := h2 c tl' rfl
      rw [← (C59_digit r h36 c).2] at this
      simp [List.takeWhile, this]
  | cons c run ih =>
    have := (C59_digit r h36 c).2.mpr (h1 c (by simp))
    rw [List.cons_append, List.takeWhile_cons, if_pos this, ← ih (fun x hx => h1 x (by simp [hx]))]

theorem exists_denotes {r : Nat} : ∀ (l : List Char), (∀ c ∈ l, ∃ v, IsDigit r c v) → ∃ n, Denotes r l n
  | [], _ => ⟨0, rfl⟩
  | c :: l, h => by
    obtain ⟨v, hv⟩ := h c (by simp)
    obtain ⟨n, hn⟩ := exists_denotes l fun x hx => h x (by simp [hx])
    exact ⟨_, v, n, hv, hn, rfl⟩

theorem origSub_append {ι : Type} [Item ι] (pre run tl : List ι) :
    origSub (pre ++ run ++ tl) (blen pre) (blen run) = .ok run := by
  unfold origSub
  rw [List.append_assoc, dropB_append]
  simp only
  rw [takeB_append]

theorem Denotes.unique {r : Nat} (h36 : r ≤ 36) : ∀ {l : List Char} {n m : Nat},
    Denotes r l n → Denotes r l m → n = m
  | [], n, m, h, h' => by simp only [Denotes] at h h'; omega
  | c :: l, n, m, ⟨v, a, hv, ha, hn⟩, ⟨w, b, hw, hb, hm⟩ => by
    have e : v = w := by
      rw [← C59_digit_value r h36] at hv hw
      rw [hv] at hw; exact Option.some.inj hw
    rw [hn, hm, e, Denotes.unique h36 ha hb]

/-- A run of digits is read as an unsigned number. -/
theorem read_run {signed : Bool} {bits r : Nat} (h2 : 2 ≤ r) (h36 : r ≤ 36) {run : List Char} {n : Nat}
    (hne : run ≠ []) (hn : Denotes r run n) :
    (InType signed bits n → fromStrRadix signed bits r run = some (n : Int)) ∧
    (¬ InType signed bits n → fromStrRadix signed bits r run = none) := by
  constructor
  · intro h
    exact (C60_from_str_radix signed bits r h2 h36 _ _).mpr ⟨⟨run, n, hne, hn, .inl ⟨rfl, rfl⟩⟩, h⟩
  · intro h
    cases hc : fromStrRadix signed bits r run with
    | none => rfl
    | some v =>
      exfalso
      obtain ⟨⟨ds, m, _, hd, hx⟩, hin⟩ := (C60_from_str_radix signed bits r h2 h36 _ _).mp hc
      have nosign : ∀ (c : Char) (l : List Char), run = c :: l → c = '+' ∨ c = '-' → False := by
        rintro c l rfl hcc
        obtain ⟨w, _, hw, _⟩ := hn
        rcases hcc with rfl | rfl
        · exact (not_digit_sign r w h36).1 hw
        · exact (not_digit_sign r w h36).2 hw
      rcases hx with ⟨rfl, rfl⟩ | ⟨he, _⟩ | ⟨_, he, _⟩
      · rw [Denotes.unique h36 hd hn] at hin; exact h hin
      · exact nosign _ _ he (.inl rfl)
      · exact nosign _ _ he (.inr rfl)

/-- What `try_map(from_str_radix)` makes of the text `l`. -/
theorem numMapper_text (signed : Bool) (bits r : Nat) (l : List Char) :
    numMapper signed bits r (.base (.text l)) =
      match fromStrRadix signed bits r l with
      | some n => .ok (.base (.num n))
      | none => .err .fromStr := by
  simp only [numMapper, fromStr]
  cases fromStrRadix signed bits r l <;> rfl

/-- **C60 (a number pattern).** `digit(r).many1().try_map(from_str_radix::<T>(r))`
on any input: it reads the whole run of digits at the current position.  An empty
run is `Error::Many1` at the same position; otherwise the value is that of all the
digits, if it fits into the type; if not, the error is `Error::FromStr` and the
context is left *behind* the digits. -/
theorem C60_number (G : Rules Char NumVal) (signed : Bool) (bits r : Nat) (h2 : 2 ≤ r) (h36 : r ≤ 36)
    (pre rest run : List Char) (hrun : DigitRun r rest run) (x : CRes Unit (Val NumVal)) :
    Constructs G textH none (pre ++ rest) (numPat signed bits r) () (blen pre) x ↔
      (run = [] ∧ x = .err .many1 () (blen pre)) ∨
      (run ≠ [] ∧ ∃ n, Denotes r run n ∧
        ((InType signed bits n ∧ x = .ok (.base (.num n)) () (blen pre + blen run)) ∨
         (¬ InType signed bits n ∧ x = .err .fromStr () (blen pre + blen run)))) := by
  have hu := digitRun_unique h36 hrun
  obtain ⟨tl, hsplit, hdig, _⟩ := hrun
  have hm := fun res => C23_many1_takeWhile (β := NumVal) (G := G) (pol := none) (Unit.digit r) pre rest rfl res
  rw [← hu] at hm
  have hm' : ∀ res, Runs G none (pre ++ rest) (.many1 (Unit.digit r) .empty) (blen pre) res ↔
      Parses G none (pre ++ rest) (.many1 (Unit.digit r) .empty) (blen pre) res := fun res => runs_plain
  have hleaf := C52_primitive_construct (G := G) (H := textH) (pol := none) (d := pre ++ rest)
    (.many1 (Unit.digit r) .empty) trivial () (blen pre)
  have hmap := C52_map_construct (G := G) (H := textH) (pol := none) (d := pre ++ rest)
    (.many1 (Unit.digit r) .empty) (numMapper signed bits r) () (blen pre)
  have hH : textH (pre ++ rest) (blen pre + blen run) ⟨blen pre, blen run⟩ () = (.ok (.text run), ()) := by
    unfold textH
    rw [hsplit, ← List.append_assoc, origSub_append]
  by_cases hne : run = []
  · have hR : Constructs G textH none (pre ++ rest) (numPat signed bits r) () (blen pre)
        (.err .many1 () (blen pre)) :=
      (hmap.2.1 _ _ _).mpr (.inl ((hleaf.2.1 _ _ _).mpr (.inl ⟨(hm' _).mpr ((hm _).mpr (by rw [if_pos hne])), rfl⟩)))
    constructor
    · intro h; exact .inl ⟨hne, h.unique hR⟩
    · rintro (⟨_, rfl⟩ | ⟨h, _⟩)
      · exact hR
      · exact absurd hne h
  · have hC : Constructs G textH none (pre ++ rest) (.many1 (Unit.digit r) .empty) () (blen pre)
        (.ok (.base (.text run)) () (blen pre + blen run)) :=
      (hleaf.1 _ _ _).mpr ⟨_, _, (hm' _).mpr ((hm _).mpr (by rw [if_neg hne])), hH, rfl⟩
    obtain ⟨n, hn⟩ := exists_denotes run hdig
    have hread := read_run (signed := signed) (bits := bits) h2 h36 hne hn
    have hok : InType signed bits n → Constructs G textH none (pre ++ rest) (numPat signed bits r) () (blen pre)
        (.ok (.base (.num n)) () (blen pre + blen run)) := fun hin =>
      (hmap.1 _ _ _).mpr ⟨_, hC, by rw [numMapper_text, hread.1 hin]⟩
    have herr : ¬ InType signed bits n → Constructs G textH none (pre ++ rest) (numPat signed bits r) () (blen pre)
        (.err .fromStr () (blen pre + blen run)) := fun hin =>
      (hmap.2.1 _ _ _).mpr (.inr ⟨_, hC, by rw [numMapper_text, hread.2 hin]⟩)
    constructor
    · intro h
      refine .inr ⟨hne, n, hn, ?_⟩
      by_cases hin : InType signed bits n
      · exact .inl ⟨hin, h.unique (hok hin)⟩
      · exact .inr ⟨hin, h.unique (herr hin)⟩
    · rintro (⟨h, _⟩ | ⟨_, m, hm2, h⟩)
      · exact absurd h hne
      · rw [Denotes.unique h36 hm2 hn] at h
        rcases h with ⟨hin, rfl⟩ | ⟨hin, rfl⟩
        · exact hok hin
        · exact herr hin

/-- Hence a printed number followed by anything that is not a digit is read back,
and the context stops right behind it. -/
theorem C60_number_round_trip (G : Rules Char NumVal) (signed : Bool) (bits r : Nat) (h2 : 2 ≤ r) (h16 : r ≤ 16)
    (pre tl : List Char) (n : Nat) (hin : InType signed bits n)
    (htl : ∀ c tl', tl = c :: tl' → ¬ ∃ v, IsDigit r c v) :
    Constructs G textH none (pre ++ (Nat.toDigits r n ++ tl)) (numPat signed bits r) () (blen pre)
      (.ok (.base (.num n)) () (blen pre + blen (Nat.toDigits r n))) := by
  have hden := denotes_toDigits h2 h16 n
  have hall : ∀ (l : List Char) (n : Nat), Denotes r l n → ∀ c ∈ l, ∃ v, IsDigit r c v := by
    intro l
    induction l with
    | nil => intro _ _ c hc; cases hc
    | cons a l ih =>
      rintro n ⟨v, m, hv, hm, _⟩ c hc
      rcases List.mem_cons.mp hc with rfl | hc
      · exact ⟨v, hv⟩
      · exact ih m hm c hc
  exact (C60_number G signed bits r h2 (by omega) pre _ _ ⟨tl, rfl, hall _ _ hden, htl⟩ _).mpr
    (.inr ⟨toDigits_ne_nil h2 n, n, hden, .inl ⟨hin, rfl⟩⟩)

/-- **C60 (a signed number pattern).** `['+', '-'].opt().then(digit(r).many1()).pat()`
with `try_map(from_str_radix::<iN>(r))`: an optional sign and the whole run of
digits after it are read as one number. -/
theorem C60_signed_number (G : Rules Char NumVal) (bits r : Nat) (h2 : 2 ≤ r) (h36 : r ≤ 36)
    (pre sgn rest run : List Char) (hs : sgn = [] ∨ sgn = ['+'] ∨ sgn = ['-'])
    (hrun : DigitRun r rest run) (hne : run ≠ []) (x : CRes Unit (Val NumVal)) :
    Constructs G textH none (pre ++ (sgn ++ rest)) (signedNumPat bits r) () (blen pre) x ↔
      ∃ n, Denotes r run n ∧ ∃ v : Int, v = (if sgn = ['-'] then -(n : Int) else n) ∧
        ((InType true bits v ∧ x = .ok (.base (.num v)) () (blen pre + blen sgn + blen run)) ∨
         (¬ InType true bits v ∧ x = .err .fromStr () (blen pre + blen sgn + blen run))) := by
  have hu := digitRun_unique h36 hrun
  obtain ⟨tl, hsplit, hdig, htl⟩ := hrun
  obtain ⟨n, hn⟩ := exists_denotes run hdig
  have hd1 : ∀ c l, run = c :: l → c ≠ '+' ∧ c ≠ '-' := by
    rintro c l rfl
    obtain ⟨w, hw⟩ := hdig c (by simp)
    exact ⟨fun h => (not_digit_sign r w h36).1 (h ▸ hw), fun h => (not_digit_sign r w h36).2 (h ▸ hw)⟩
  -- the sign
  have hopt : Parses (β := NumVal) G none (pre ++ (sgn ++ rest)) (.optU (.mem ['+', '-']) .empty) (blen pre)
      (.ok ⟨blen pre, blen sgn⟩ (blen pre + blen sgn)) := by
    refine ((C23_opt_unit (G := G) (pol := none) (Neu.mem ['+', '-']) .empty pre (sgn ++ rest) rfl).1 _ _).mpr ?_
    rcases hs with rfl | rfl | rfl
    · refine .inr ⟨fun c l hc => ?_, rfl, rfl⟩
      refine .inr ⟨?_, rfl⟩
      cases run with
      | nil => exact absurd rfl hne
      | cons a run =>
        rw [hsplit] at hc
        injection hc with hc _
        subst hc
        have := hd1 a run rfl
        simp [Neu.isMatch, this.1, this.2]
    · exact .inl ⟨'+', rest, rfl, .inl ⟨rfl, rfl⟩, rfl, rfl⟩
    · exact .inl ⟨'-', rest, rfl, .inl ⟨rfl, rfl⟩, rfl, rfl⟩
  -- the digits
  have hmany : Parses (β := NumVal) G none (pre ++ (sgn ++ rest)) (.many1 (Unit.digit r) .empty)
      (blen pre + blen sgn) (.ok ⟨blen pre + blen sgn, blen run⟩ (blen pre + blen sgn + blen run)) := by
    have := (C23_many1_takeWhile (β := NumVal) (G := G) (pol := none) (Unit.digit r) (pre ++ sgn) rest
      (d := pre ++ (sgn ++ rest)) (by rw [List.append_assoc]) (.ok ⟨blen pre + blen sgn, blen run⟩
        (blen pre + blen sgn + blen run))).mpr (by rw [← hu, if_neg hne, blen_append])
    rwa [blen_append] at this
  have hthen : Parses (β := NumVal) G none (pre ++ (sgn ++ rest))
      (.thn (.optU (.mem ['+', '-']) .empty) (.many1 (Unit.digit r) .empty)) (blen pre)
      (.ok ⟨blen pre, blen (sgn ++ run)⟩ (blen pre + blen sgn + blen run)) := by
    refine ((C08_then _ _ _).1 _ _).mpr ⟨_, _, _, hopt, hmany, ?_⟩
    rw [blen_append]
    exact ⟨by simp, by simp, rfl, by simp; omega⟩
  have hH : textH (pre ++ (sgn ++ rest)) (blen pre + blen sgn + blen run) ⟨blen pre, blen (sgn ++ run)⟩ () =
      (.ok (.text (sgn ++ run)), ()) := by
    unfold textH
    rw [hsplit, show pre ++ (sgn ++ (run ++ tl)) = pre ++ (sgn ++ run) ++ tl by simp [List.append_assoc],
      origSub_append]
  have hC : Constructs G textH none (pre ++ (sgn ++ rest))
      (.pat (.thn (.optU (.mem ['+', '-']) .empty) (.many1 (Unit.digit r) .empty))) () (blen pre)
      (.ok (.base (.text (sgn ++ run))) () (blen pre + blen sgn + blen run)) :=
    ((C52_pat_construct _ _ _).1 _ _ _).mpr ⟨_, _, hthen, hH, rfl⟩
  have hmap := C52_map_construct (G := G) (H := textH) (pol := none) (d := pre ++ (sgn ++ rest))
    (.pat (.thn (.optU (.mem ['+', '-']) .empty) (.many1 (Unit.digit r) .empty))) (numMapper true bits r) ()
    (blen pre)
  -- reading the text
  have hw : ∀ v, Writes true r (sgn ++ run) v ↔ v = (if sgn = ['-'] then -(n : Int) else n) := by
    intro v
    constructor
    · rintro ⟨ds, m, _, hd, h⟩
      rcases hs with rfl | rfl | rfl
      · rcases h with ⟨h, rfl⟩ | ⟨h, _⟩ | ⟨_, h, _⟩
        · simp only [List.nil_append] at h; subst h
          rw [Denotes.unique h36 hd hn]; simp
        · exact absurd rfl (hd1 _ _ h).1
        · exact absurd rfl (hd1 _ _ h).2
      · rcases h with ⟨h, rfl⟩ | ⟨h, rfl⟩ | ⟨_, h, _⟩
        · subst h
          obtain ⟨w, _, hw, _⟩ := hd
          exact absurd hw (not_digit_sign r w h36).1
        · injection h with _ h
          subst h
          rw [Denotes.unique h36 hd hn]; simp
        · injection h with h _; exact absurd h (by decide)
      · rcases h with ⟨h, rfl⟩ | ⟨h, rfl⟩ | ⟨_, h, rfl⟩
        · subst h
          obtain ⟨w, _, hw, _⟩ := hd
          exact absurd hw (not_digit_sign r w h36).2
        · injection h with h _; exact absurd h (by decide)
        · injection h with _ h
          subst h
          rw [Denotes.unique h36 hd hn]; simp
    · rintro rfl
      refine ⟨run, n, hne, hn, ?_⟩
      rcases hs with rfl | rfl | rfl
      · exact .inl ⟨rfl, by simp⟩
      · exact .inr (.inl ⟨rfl, by simp⟩)
      · exact .inr (.inr ⟨rfl, rfl, by simp⟩)
  have hread : ∀ v : Int, v = (if sgn = ['-'] then -(n : Int) else n) →
      (InType true bits v → fromStrRadix true bits r (sgn ++ run) = some v) ∧
      (¬ InType true bits v → fromStrRadix true bits r (sgn ++ run) = none) := by
    intro v hv
    constructor
    · intro h; exact (C60_from_str_radix true bits r h2 h36 _ _).mpr ⟨(hw v).mpr hv, h⟩
    · intro h
      cases hc : fromStrRadix true bits r (sgn ++ run) with
      | none => rfl
      | some w =>
        exfalso
        obtain ⟨h1, h3⟩ := (C60_from_str_radix true bits r h2 h36 _ _).mp hc
        rw [(hw w).mp h1, ← hv] at h3
        exact h h3
  have hok : ∀ v : Int, v = (if sgn = ['-'] then -(n : Int) else n) → InType true bits v →
      Constructs G textH none (pre ++ (sgn ++ rest)) (signedNumPat bits r) () (blen pre)
        (.ok (.base (.num v)) () (blen pre + blen sgn + blen run)) := fun v hv hin =>
    (hmap.1 _ _ _).mpr ⟨_, hC, by rw [numMapper_text, (hread v hv).1 hin]⟩
  have herr : ∀ v : Int, v = (if sgn = ['-'] then -(n : Int) else n) → ¬ InType true bits v →
      Constructs G textH none (pre ++ (sgn ++ rest)) (signedNumPat bits r) () (blen pre)
        (.err .fromStr () (blen pre + blen sgn + blen run)) := fun v hv hin =>
    (hmap.2.1 _ _ _).mpr (.inr ⟨_, hC, by rw [numMapper_text, (hread v hv).2 hin]⟩)
  constructor
  · intro h
    refine ⟨n, hn, _, rfl, ?_⟩
    by_cases hin : InType true bits (if sgn = ['-'] then -(n : Int) else n)
    · exact .inl ⟨hin, h.unique (hok _ rfl hin)⟩
    · exact .inr ⟨hin, h.unique (herr _ rfl hin)⟩
  · rintro ⟨m, hm, v, hv, h⟩
    rw [Denotes.unique h36 hm hn] at hv
    rcases h with ⟨hin, rfl⟩ | ⟨hin, rfl⟩
    · exact hok v hv hin
    · exact herr v hv hin

example : Constructs G0 textH none "x=-128;".toList (signedNumPat 8 10) () 2 (.ok (.base (.num (-128))) () 6) ∧
    Constructs G0 textH none "x=+128;".toList (signedNumPat 8 10) () 2 (.err .fromStr () 6) :=
  ⟨⟨5, by decide +kernel⟩, ⟨5, by decide +kernel⟩⟩

/-- "rust2026!": after "rust", the number pattern reads 2026 and stops before `!`. -/
example : DigitRun 10 "2026!".toList "2026".toList ∧
    Constructs G0 textH none "rust2026!".toList (numPat true 32 10) () 4 (.ok (.base (.num 2026)) () 8) := by
  refine ⟨?_, 3, by decide +kernel⟩
  have := digitRun_takeWhile (r := 10) (by decide) "2026!".toList
  rwa [show "2026!".toList.takeWhile (Unit.digit 10).isMatch = "2026".toList by decide +kernel] at this

/-- 300 does not fit into `u8`: `Error::FromStr`, and the offset is behind the digits. -/
example : ¬ InType false 8 (300 : Nat) ∧
    Constructs G0 textH none "300".toList (numPat false 8 10) () 0 (.err .fromStr () 3) :=
  ⟨by simp [InType], 3, by decide +kernel⟩

end Neure
