import Verif.Range
import Verif.Mapper
/-!
# C39 ranges, C40 integer decoding, C41 mappers, C43 merging spans
-/

namespace Neure

set_option linter.unusedSectionVars false
set_option linter.unusedSimpArgs false

/-! ## C39 -/

/-- What a Rust range expression means: the set of its elements.  An integer
`v` stands for the single value `v as usize`. -/
def RangeExpr.Mem (x : Nat) : RangeExpr → Prop
  | .range a b => a ≤ x ∧ x < b
  | .rangeFrom a => a ≤ x
  | .rangeFull => True
  | .rangeIncl a b => a ≤ x ∧ x ≤ b
  | .rangeTo b => x < b
  | .rangeToIncl b => x ≤ b
  | .bounds lo hi =>
    (match lo with | .incl a => a ≤ x | .excl a => a < x | .unb => True) ∧
    (match hi with | .incl b => x ≤ b | .excl b => x < b | .unb => True)
  | .int v => (x : Int) = v % 2 ^ 64

/-- **C39.**  Converting a range expression (or an integer) to a `CRange`
preserves its elements. -/
theorem C39_conversion_preserves_membership (e : RangeExpr) (x : Nat) :
    e.toCRange.contains x = true ↔ e.Mem x := by
  cases e with
  | int v =>
    simp only [RangeExpr.toCRange, CRange.contains, asUsize, Bool.and_eq_true, decide_eq_true_eq,
      RangeExpr.Mem]
    omega
  | bounds lo hi => cases lo <;> cases hi <;> simp [RangeExpr.toCRange, CRange.contains, RangeExpr.Mem]
  | _ => simp [RangeExpr.toCRange, CRange.contains, RangeExpr.Mem]

/-- An integer that is not negative and fits into `usize` stands for itself;
negative integers wrap around. -/
theorem C39_integers (v : Int) (x : Nat) :
    (0 ≤ v → v ≤ usizeMax → ((RangeExpr.int v).toCRange.contains x = true ↔ (x : Int) = v)) ∧
    (-(2 ^ 63) ≤ v → v < 0 →
      ((RangeExpr.int v).toCRange.contains x = true ↔ (x : Int) = v + 2 ^ 64)) := by
  simp only [C39_conversion_preserves_membership, RangeExpr.Mem, usizeMax]
  constructor <;> intros <;> omega

/-- The bounds of the range are `usize` values. -/
def CRange.Usize (r : CRange) : Prop :=
  (∀ a, r.lo = .incl a ∨ r.lo = .excl a → a ≤ usizeMax) ∧
  (∀ a, r.hi = .incl a ∨ r.hi = .excl a → a ≤ usizeMax)

/-- **C39.**  `is_empty` says whether the range has no element of type `usize`,
for all ranges but `..0` and those that begin after `usize::MAX`. -/
theorem C39_is_empty (r : CRange) (hr : r.Usize) (h1 : r ≠ ⟨.unb, .excl 0⟩)
    (h2 : r ≠ ⟨.excl usizeMax, .unb⟩) :
    r.isEmpty = true ↔ ¬ ∃ x, x ≤ usizeMax ∧ r.contains x = true := by
  obtain ⟨lo, hi⟩ := r
  have hlo : ∀ a, lo = .incl a ∨ lo = .excl a → a ≤ usizeMax := hr.1
  have hhi : ∀ a, hi = .incl a ∨ hi = .excl a → a ≤ usizeMax := hr.2
  simp only [CRange.isEmpty, CRange.contains, Bool.and_eq_true, not_exists, not_and,
    Bool.not_eq_true', Bool.not_eq_true]
  cases lo with
  | incl a =>
    have ha := hlo a (.inl rfl)
    cases hi with
    | incl b =>
      simp only [decide_eq_false_iff_not, decide_eq_true_eq]
      exact ⟨fun h x _ h3 => by simp; omega, fun h => by have := h a ha (Nat.le_refl _); simp at this; omega⟩
    | excl b =>
      simp only [decide_eq_false_iff_not, decide_eq_true_eq]
      exact ⟨fun h x _ h3 => by simp; omega, fun h => by have := h a ha (Nat.le_refl _); simp at this; omega⟩
    | unb =>
      simp only [decide_eq_true_eq]
      exact ⟨fun h => by simp at h, fun h => by have := h a ha (Nat.le_refl _); simp at this⟩
  | excl a =>
    have ha := hlo a (.inr rfl)
    cases hi with
    | incl b =>
      have hb := hhi b (.inl rfl)
      simp only [decide_eq_false_iff_not, decide_eq_true_eq]
      refine ⟨fun h x _ h3 => by simp; omega, fun h => ?_⟩
      intro hab
      have := h (a + 1) (by omega) (by omega); simp at this; omega
    | excl b =>
      have hb := hhi b (.inr rfl)
      have hm : usizeMax = 18446744073709551615 := by decide
      simp only [decide_eq_true_eq, ← Bool.decide_and, decide_eq_false_iff_not]
      refine ⟨fun h x _ h3 => by simp; omega, fun h hab => ?_⟩
      have := h (a + 1) (by omega) (by omega); simp at this; omega
    | unb =>
      simp only [decide_eq_true_eq]
      refine ⟨fun h => by simp at h, fun h => ?_⟩
      have hne : a ≠ usizeMax := by rintro rfl; exact h2 rfl
      have := h (a + 1) (by omega) (by omega); simp at this
  | unb =>
    cases hi with
    | incl b => exact ⟨fun h => by simp at h, fun h => by have := h 0 (Nat.zero_le _) rfl; simp at this⟩
    | excl b =>
      refine ⟨fun h => by simp at h, fun h => ?_⟩
      have hne : b ≠ 0 := by rintro rfl; exact h1 rfl
      have := h 0 (Nat.zero_le _) rfl; simp at this; omega
    | unb => exact ⟨fun h => by simp at h, fun h => by have := h 0 (Nat.zero_le _) rfl; simp at this⟩

/-- The two exceptions are real: no `usize` lies in `..0` or strictly above
`usize::MAX`, but `is_empty` says `false`. -/
theorem C39_is_empty_counterexample (r : CRange)
    (h : r = ⟨.unb, .excl 0⟩ ∨ r = ⟨.excl usizeMax, .unb⟩) :
    r.Usize ∧ r.isEmpty = false ∧ ∀ x, x ≤ usizeMax → r.contains x = false := by
  rcases h with rfl | rfl
  · refine ⟨⟨?_, ?_⟩, rfl, fun x _ => by simp [CRange.contains]⟩ <;> simp
  · refine ⟨⟨?_, ?_⟩, rfl, fun x hx => by simp [CRange.contains, hx]⟩ <;> simp

/-- Non-vacuity of `C39_is_empty`: an empty and a non-empty range. -/
example : (⟨.incl 3, .excl 3⟩ : CRange).isEmpty = true ∧
    (⟨.excl 3, .excl 5⟩ : CRange).isEmpty = false ∧
    (⟨.excl 3, .excl 5⟩ : CRange).contains 4 = true := by decide

/-! ## C40 -/

/-- `bs` is the little-endian representation of `v` in `size` bytes. -/
def IsLe (size v : Nat) (bs : List UInt8) : Prop :=
  bs.length = size ∧ v < 256 ^ size ∧
    ∀ i (h : i < bs.length), (bs[i]).toNat = v / 256 ^ i % 256

/-- `bs` is the big-endian representation of `v` in `size` bytes. -/
def IsBe (size v : Nat) (bs : List UInt8) : Prop :=
  bs.length = size ∧ v < 256 ^ size ∧
    ∀ i (h : i < bs.length), (bs[i]).toNat = v / 256 ^ (size - 1 - i) % 256

/-- The bit pattern of a signed integer of `size` bytes (two's complement). -/
def pattern (size : Nat) (z : Int) : Nat := (z % 2 ^ (8 * size)).toNat

/-- `z` fits into a signed integer of `size` bytes. -/
def Fits (size : Nat) (z : Int) : Prop := -(2 ^ (8 * size - 1)) ≤ z ∧ z < 2 ^ (8 * size - 1)

theorem leValue_isLe (bs : List UInt8) : IsLe bs.length (leValue bs) bs := by
  induction bs with
  | nil => exact ⟨rfl, by decide, fun i h => by simp at h⟩
  | cons b l ih =>
    obtain ⟨-, h2, h3⟩ := ih
    have hb : b.toNat < 256 := b.toNat_lt
    refine ⟨rfl, ?_, fun i h => ?_⟩
    · simp only [leValue, List.length_cons, Nat.pow_succ]; omega
    · cases i with
      | zero => simp [leValue]
      | succ i =>
        have := h3 i (by simpa using h)
        simp only [List.getElem_cons_succ, leValue, this]
        rw [Nat.pow_succ', ← Nat.div_div_eq_div_mul]
        congr 2
        omega

theorem isLe_leValue {size v : Nat} {bs : List UInt8} (h : IsLe size v bs) : leValue bs = v := by
  induction bs generalizing size v with
  | nil =>
    obtain ⟨rfl, h2, -⟩ := h
    simp at h2; simp [leValue, h2]
  | cons b l ih =>
    obtain ⟨rfl, h2, h3⟩ := h
    have h0 := h3 0 (by simp)
    simp only [List.getElem_cons_zero, Nat.pow_zero, Nat.div_one] at h0
    have := ih (size := l.length) (v := v / 256) ⟨rfl, by
      simp only [List.length_cons, Nat.pow_succ] at h2
      exact Nat.div_lt_of_lt_mul (by rwa [Nat.mul_comm]), fun i hi => by
      have := h3 (i + 1) (by simpa using hi)
      simp only [List.getElem_cons_succ] at this
      rw [this, Nat.div_div_eq_div_mul, Nat.pow_succ']⟩
    simp only [leValue, this, h0]; omega

theorem isBe_reverse {size v : Nat} {bs : List UInt8} : IsBe size v bs ↔ IsLe size v bs.reverse := by
  unfold IsBe IsLe
  simp only [List.length_reverse]
  refine and_congr_right fun h1 => and_congr_right fun _ => ⟨fun h i hi => ?_, fun h i hi => ?_⟩
  · rw [List.getElem_reverse, h _ (by omega)]
    congr 3; omega
  · have := h (bs.length - 1 - i) (by omega)
    rw [List.getElem_reverse] at this
    have e : bs.length - 1 - (bs.length - 1 - i) = i := by omega
    simp only [e] at this
    rw [this]; congr 3; omega

/-- **C40**, unsigned.  `from_le_bytes`, `from_be_bytes` and `from_ne_bytes` fail
iff there are fewer than `size` bytes; otherwise they return the number whose
representation the first `size` bytes are (unique), whatever bytes follow. -/
theorem C40_unsigned (size : Nat) (l : List UInt8) :
    (∀ v, fromLeU size l = .ok v ↔ size ≤ l.length ∧ IsLe size v (l.take size)) ∧
    (∀ v, fromBeU size l = .ok v ↔ size ≤ l.length ∧ IsBe size v (l.take size)) ∧
    (∀ v, fromNeU false size l = .ok v ↔ size ≤ l.length ∧ IsLe size v (l.take size)) ∧
    (∀ v, fromNeU true size l = .ok v ↔ size ≤ l.length ∧ IsBe size v (l.take size)) ∧
    (l.length < size → fromLeU size l = .err .fromLeBytes ∧ fromBeU size l = .err .fromBeBytes ∧
      ∀ b, fromNeU b size l = .err .fromNeBytes) := by
  by_cases h : size ≤ l.length
  · have hc : firstChunk size l = some (l.take size) := by simp [firstChunk, h]
    have hl : (l.take size).length = size := by simp; omega
    have hle : ∀ v, leValue (l.take size) = v ↔ IsLe size v (l.take size) := fun v =>
      ⟨fun e => by have := leValue_isLe (l.take size); rw [hl] at this; exact e ▸ this,
        fun e => isLe_leValue e⟩
    have hbe : ∀ v, leValue (l.take size).reverse = v ↔ IsBe size v (l.take size) := fun v => by
      rw [isBe_reverse]
      exact ⟨fun e => by
        have := leValue_isLe (l.take size).reverse; rw [List.length_reverse, hl] at this
        exact e ▸ this, fun e => isLe_leValue e⟩
    simp only [fromLeU, fromBeU, fromNeU, hc, Out.ok.injEq, h, true_and, Bool.false_eq_true,
      if_false, if_true, hle, hbe]
    exact ⟨fun _ => trivial, fun _ => trivial, fun _ => trivial, fun _ => trivial,
      fun h' => by omega⟩
  · have hc : firstChunk size l = none := by simp [firstChunk, h]
    simp [fromLeU, fromBeU, fromNeU, hc, h]

theorem signedOf_iff {size v : Nat} (hs : 0 < size) (hv : v < 256 ^ size) (z : Int) :
    signedOf size v = z ↔ Fits size z ∧ pattern size z = v := by
  have e : (256 : Nat) ^ size = 2 ^ (8 * size) := by rw [Nat.pow_mul]
  have e2 : (2 : Nat) ^ (8 * size) = 2 * 2 ^ (8 * size - 1) := by
    rw [← Nat.pow_succ']; congr 1; omega
  have e3 : (2 : Int) ^ (8 * size) = ((2 ^ (8 * size) : Nat) : Int) := by simp
  have e4 : (2 : Int) ^ (8 * size - 1) = ((2 ^ (8 * size - 1) : Nat) : Int) := by simp
  simp only [signedOf, Fits, pattern, e3, e4]
  rw [e] at hv
  generalize hB : (2 : Nat) ^ (8 * size) = B at *
  generalize hA : (2 : Nat) ^ (8 * size - 1) = A at *
  subst e2
  have hApos : 0 < A := by rw [← hA]; exact Nat.pow_pos (by decide)
  constructor
  · intro h
    split at h
    · subst h
      refine ⟨by omega, ?_⟩
      rw [show (v : Int) - ((2 * A : Nat) : Int) = (v : Int) + ((2 * A : Nat) : Int) * (-1) by omega,
        Int.add_mul_emod_self_left, Int.emod_eq_of_lt (by omega) (by omega)]
      simp
    · subst h
      refine ⟨by omega, ?_⟩
      rw [Int.emod_eq_of_lt (by omega) (by omega)]; simp
  · rintro ⟨⟨h1, h2⟩, h3⟩
    by_cases hz : 0 ≤ z
    · rw [Int.emod_eq_of_lt hz (by omega)] at h3
      rw [if_neg (by omega)]; omega
    · have : z % ((2 * A : Nat) : Int) = z + (2 * A : Nat) := by
        rw [show z = (z + ((2 * A : Nat) : Int)) + ((2 * A : Nat) : Int) * (-1) by omega,
          Int.add_mul_emod_self_left, Int.emod_eq_of_lt (by omega) (by omega)]
        omega
      rw [this] at h3
      rw [if_pos (by omega)]; omega

/-- **C40**, signed: the same, for two's complement. -/
theorem C40_signed (size : Nat) (hs : 0 < size) (l : List UInt8) :
    (∀ z, fromLeI size l = .ok z ↔
      size ≤ l.length ∧ Fits size z ∧ IsLe size (pattern size z) (l.take size)) ∧
    (∀ z, fromBeI size l = .ok z ↔
      size ≤ l.length ∧ Fits size z ∧ IsBe size (pattern size z) (l.take size)) ∧
    (l.length < size → fromLeI size l = .err .fromLeBytes ∧ fromBeI size l = .err .fromBeBytes) := by
  by_cases h : size ≤ l.length
  · have hc : firstChunk size l = some (l.take size) := by simp [firstChunk, h]
    have hl : (l.take size).length = size := by simp; omega
    have h1 := leValue_isLe (l.take size)
    have h2 := leValue_isLe (l.take size).reverse
    rw [hl] at h1
    rw [List.length_reverse, hl] at h2
    refine ⟨fun z => ?_, fun z => ?_, fun h' => by omega⟩
    · simp only [fromLeI, hc, Out.ok.injEq, h, true_and, signedOf_iff hs h1.2.1]
      refine and_congr_right fun _ => ⟨fun e => e ▸ h1, fun e => (isLe_leValue e).symm⟩
    · simp only [fromBeI, hc, Out.ok.injEq, h, true_and, signedOf_iff hs h2.2.1]
      refine and_congr_right fun _ => ⟨fun e => isBe_reverse.2 (e ▸ h2),
        fun e => (isLe_leValue (isBe_reverse.1 e)).symm⟩
  · have hc : firstChunk size l = none := by simp [firstChunk, h]
    simp [fromLeI, fromBeI, hc, h]

/-- **C40**: every value of the type has a representation, so it can be decoded
(the decoders are onto), for every width. -/
theorem C40_every_value_is_decoded (size v : Nat) (hv : v < 256 ^ size) :
    ∃ bs, IsLe size v bs ∧ IsBe size v bs.reverse ∧
      ∀ rest, fromLeU size (bs ++ rest) = .ok v ∧ fromBeU size (bs.reverse ++ rest) = .ok v := by
  have key : ∀ size v, v < 256 ^ size → ∃ bs, IsLe size v bs := by
    intro size
    induction size with
    | zero => intro v hv; exact ⟨[], rfl, hv, fun i h => by simp at h⟩
    | succ n ih =>
      intro v hv
      obtain ⟨bs, h1, h2, h3⟩ := ih (v / 256) (by
        rw [Nat.pow_succ] at hv; exact Nat.div_lt_of_lt_mul (by rwa [Nat.mul_comm]))
      refine ⟨UInt8.ofNat v :: bs, by simp [h1], hv, fun i hi => ?_⟩
      cases i with
      | zero => simp
      | succ i =>
        have := h3 i (by simpa using hi)
        simp only [List.getElem_cons_succ, this]
        rw [Nat.div_div_eq_div_mul, Nat.pow_succ']
  obtain ⟨bs, hb⟩ := key size v hv
  have hbe : IsBe size v bs.reverse := isBe_reverse.2 (by simpa using hb)
  refine ⟨bs, hb, hbe, fun rest => ⟨?_, ?_⟩⟩
  · have ht : (bs ++ rest).take size = bs := by rw [← hb.1]; simp
    exact ((C40_unsigned size _).1 v).2 ⟨by simp [hb.1], by rw [ht]; exact hb⟩
  · have ht : (bs.reverse ++ rest).take size = bs.reverse := by
      rw [← hb.1, ← List.length_reverse]; simp
    exact ((C40_unsigned size _).2.1 v).2 ⟨by simp [hb.1], by rw [ht]; exact hbe⟩

/-- Non-vacuity of C40: the example in the documentation of the crate, and a
negative number. -/
example : fromLeU 4 [1, 2, 3, 4] = .ok 0x04030201 ∧ fromBeU 4 [1, 2, 3, 4] = .ok 0x01020304 ∧
    fromLeI 2 [0xfe, 0xff, 7] = .ok (-2) ∧ fromBeU 2 [1] = .err .fromBeBytes := by decide

/-! ## C41 -/

/-- **C41.**  `bounded(min, max)` over a type with a decidable order passes
exactly the values with `min ≤ v < max`, unchanged. -/
theorem C41_bounded {α : Type} [LE α] [LT α] [DecidableLE α] [DecidableLT α] (min max v : α) :
    (min ≤ v ∧ v < max → bounded (fun a b => decide (a ≤ b)) (fun a b => decide (a < b)) min max v =
      .ok v) ∧
    (¬ (min ≤ v ∧ v < max) →
      ∃ e, bounded (fun a b => decide (a ≤ b)) (fun a b => decide (a < b)) min max v = .err e) := by
  unfold bounded
  constructor
  · rintro ⟨h1, h2⟩; simp [h1, h2]
  · intro h
    refine ⟨.selectEq, ?_⟩
    rw [if_neg]
    simpa using h

/-- **C41**: the projections and the (in)equality filters. -/
theorem C41_select {α γ : Type} (eq : α → γ → Bool) (v : α × γ) :
    select0 v = .ok v.1 ∧ select1 v = .ok v.2 ∧
    (eq v.1 v.2 = true → selectEq eq v = .ok v ∧ selectNeq eq v = .err .selectNeq) ∧
    (eq v.1 v.2 = false → selectEq eq v = .err .selectEq ∧ selectNeq eq v = .ok v) := by
  refine ⟨rfl, rfl, fun h => ?_, fun h => ?_⟩ <;> simp [selectEq, selectNeq, h]

/-- **C41**: `with_default` never fails (it only panics if the inner mapper
does); it is the inner mapper where that succeeds and the default elsewhere. -/
theorem C41_with_default {α γ : Type} (func : Unit → γ) (m : Mapper α γ) (v : α) :
    (∀ x, m v = .ok x → withDefault func m v = .ok x) ∧
    (∀ e, m v = .err e → withDefault func m v = .ok (func ())) ∧
    (∀ e, withDefault func m v ≠ .err e) ∧
    (withDefault func m v = .panic ↔ m v = .panic) := by
  unfold withDefault
  cases m v <;> simp

/-- **C41**: the conversions return what the underlying conversion returns, and
their own error otherwise; `fixed_size` and `func` never fail. -/
theorem C41_conversions {α γ : Type} (parse : α → Option γ) (f : α → γ) (n : Nat) (v : α) :
    (∀ x, fromStr parse v = .ok x ↔ parse v = some x) ∧
    (fromStr parse v = .err .fromStr ↔ parse v = none) ∧
    (∀ x, tryInto parse v = .ok x ↔ parse v = some x) ∧
    (tryInto parse v = .err .tryInto ↔ parse v = none) ∧
    funcMapper f v = .ok (f v) ∧ intoM f v = .ok (f v) ∧
    fixedSize n v = .ok v ∧ fixedSizeOutSize n = n := by
  unfold fromStr tryInto
  cases parse v <;> simp [funcMapper, intoM, fixedSize, fixedSizeOutSize]

/-- A value out of bounds is reported as `Error::SelectEq` ("values not equal"),
not as the `Error::Bounded` that `src/err.rs` has for it. -/
theorem C41_bounded_error_counterexample :
    bounded (fun a b : Nat => decide (a ≤ b)) (fun a b => decide (a < b)) 1 8 9 = .err .selectEq ∧
      (.selectEq : Error) ≠ .bounded := by decide

/-- Non-vacuity of C41. -/
example : bounded (fun a b : Nat => decide (a ≤ b)) (fun a b => decide (a < b)) 1 8 7 = .ok 7 ∧
    withDefault (fun _ => 0) (bounded (fun a b : Nat => decide (a ≤ b)) (fun a b => decide (a < b))
      1 5) 7 = .ok 0 := by decide

/-! ## C43 -/

/-- Position `x` lies in (or at an end of) the span. -/
def Span.Covers (s : Span) (x : Nat) : Prop := s.beg ≤ x ∧ x ≤ s.beg + s.len

/-- `s` covers everything `t` covers. -/
def Span.Contains (s t : Span) : Prop := ∀ x, t.Covers x → s.Covers x

/-- **C43.**  `a.add_assign(b)` succeeds iff `b` neither begins before `a` begins nor
ends before `a` ends; the result is then the smallest span that covers both. -/
theorem C43_merge_is_hull (a b : Span) :
    ((a.addAssign b).isSome ↔ a.beg ≤ b.beg ∧ a.beg + a.len ≤ b.beg + b.len) ∧
    (∀ c, a.addAssign b = some c → c.Contains a ∧ c.Contains b ∧
      (∀ c' : Span, c'.Contains a → c'.Contains b → c'.Contains c) ∧
      c.beg = a.beg ∧ c.beg + c.len = b.beg + b.len) := by
  unfold Span.addAssign
  constructor
  · split <;> simp <;> omega
  · intro c h
    split at h
    · rename_i hc
      simp only [Option.some.injEq] at h; subst h
      simp only [Span.Contains, Span.Covers]
      refine ⟨fun x _ => by omega, fun x _ => by omega, fun c' h1 h2 x hx => ?_, trivial, by omega⟩
      have h3 := h1 a.beg (by omega)
      have h4 := h2 (b.beg + b.len) (by omega)
      omega
    · cases h

/-- **C43**: merging consecutive spans (what the combinators do) always works,
is associative, and adjacent spans add their lengths. -/
theorem C43_consecutive_spans (a b c : Span) (hab : a.beg + a.len ≤ b.beg)
    (hbc : b.beg + b.len ≤ c.beg) :
    (∃ ab bc abc, a.addAssign b = some ab ∧ b.addAssign c = some bc ∧
      ab.addAssign c = some abc ∧ a.addAssign bc = some abc) ∧
    (b.beg = a.beg + a.len → a.addAssign b = some ⟨a.beg, a.len + b.len⟩) := by
  unfold Span.addAssign
  constructor
  · refine ⟨_, _, _, if_pos ?_, if_pos ?_, if_pos ?_, ?_⟩
    · omega
    · omega
    · simp only; omega
    · simp only
      rw [if_pos (by omega)]
      congr 2; omega
  · intro h
    rw [if_pos (by omega)]
    congr 2; omega

/-- The documentation allows overlapping spans and only asks that the other
span start later; but a span that ends before the current one ends makes the
subtraction underflow. -/
theorem C43_nested_span_counterexample :
    Span.addAssign ⟨0, 5⟩ ⟨1, 2⟩ = none := by decide

/-- Non-vacuity of C43. -/
example : Span.addAssign ⟨2, 3⟩ ⟨6, 2⟩ = some ⟨2, 6⟩ := by decide

end Neure
