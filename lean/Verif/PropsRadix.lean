import Verif.PropsNum
/-!
# C60: every radix

`C60_round_trip` prints with Lean's `Nat.toDigits`, which has digits up to radix 16.  Here the usual
way to write a number is described for every radix from 2 to 36: it exists, it is unique, and it is
read back.
-/

namespace Neure

set_option linter.unusedSectionVars false
set_option linter.unusedSimpArgs false

/-- `t` is the usual way to write `n` in radix `r`: digits `0-9a-z`, no zero in front. -/
def Usual (r : Nat) (t : List Char) (n : Nat) : Prop :=
  t ≠ [] ∧ Denotes r t n ∧ (∀ c ∈ t, c ∈ Chars.digits ++ Chars.lower) ∧ (t.head? = some '0' → t = ['0'])

theorem lower_digit {r v : Nat} {c : Char} (h36 : r ≤ 36) (h : IsDigit r c v) (hc : c ∈ Chars.digits ++ Chars.lower) :
    (Chars.digits ++ Chars.lower)[v]? = some c := by
  obtain ⟨hv, h | h⟩ := h
  · exact h
  · have key : ∀ v, v < 36 → ∀ c ∈ Chars.digits ++ Chars.lower, (Chars.digits ++ Chars.upper)[v]? = some c →
        (Chars.digits ++ Chars.lower)[v]? = some c := by decide +kernel
    exact key v (by omega) c hc h

theorem zero_digit {r v : Nat} {c : Char} (h : IsDigit r c v) (hv : v = 0) : c = '0' := by
  subst hv
  obtain ⟨-, h | h⟩ := h
  · have : (Chars.digits ++ Chars.lower)[0]? = some '0' := by decide +kernel
    rw [this] at h; exact (Option.some.inj h).symm
  · have : (Chars.digits ++ Chars.upper)[0]? = some '0' := by decide +kernel
    rw [this] at h; exact (Option.some.inj h).symm

theorem denotes_length_unique {r : Nat} (h36 : r ≤ 36) : ∀ {t t' : List Char} {n : Nat}, t.length = t'.length →
    Denotes r t n → Denotes r t' n → (∀ c ∈ t, c ∈ Chars.digits ++ Chars.lower) →
    (∀ c ∈ t', c ∈ Chars.digits ++ Chars.lower) → t = t'
  | [], [], n, _, _, _, _, _ => rfl
  | c :: l, c' :: l', n, hl, ⟨v, m, hv, hm, hn⟩, ⟨v', m', hv', hm', hn'⟩, h, h' => by
    have hl : l.length = l'.length := by simpa using hl
    have b := hm.bound (by have := hv.1; omega)
    have b' := hm'.bound (by have := hv.1; omega)
    rw [← hl] at b' hn'
    have hp : 0 < r ^ l.length := by omega
    have ev : v = v' := by
      have e1 : n / r ^ l.length = v := by
        rw [hn, Nat.mul_comm, Nat.mul_add_div hp, Nat.div_eq_of_lt b, Nat.add_zero]
      have e2 : n / r ^ l.length = v' := by
        rw [hn', Nat.mul_comm, Nat.mul_add_div hp, Nat.div_eq_of_lt b', Nat.add_zero]
      omega
    subst ev
    have em : m = m' := by omega
    subst em
    have hc := lower_digit h36 hv (h c (by simp))
    have hc' := lower_digit h36 hv' (h' c' (by simp))
    rw [hc] at hc'
    rw [Option.some.inj hc', denotes_length_unique h36 hl hm hm' (fun x hx => h x (by simp [hx]))
      (fun x hx => h' x (by simp [hx]))]

/-- **C60 (the usual writing).** In every radix from 2 to 36 every number has exactly one usual
writing. -/
theorem C60_usual_writing (r : Nat) (h2 : 2 ≤ r) (h36 : r ≤ 36) (n : Nat) :
    ∃ t, Usual r t n ∧ ∀ t', Usual r t' n → t' = t := by
  have dig : ∀ v, v < r → ∃ c, c ∈ Chars.digits ++ Chars.lower ∧ IsDigit r c v ∧ (c = '0' → v = 0) := by
    intro v hv
    have key : ∀ v, v < 36 → ∃ c ∈ Chars.digits ++ Chars.lower, (Chars.digits ++ Chars.lower)[v]? = some c ∧
        (c = '0' → v = 0) := by decide +kernel
    obtain ⟨c, h1, h2, h3⟩ := key v (by omega)
    exact ⟨c, h1, ⟨hv, .inl h2⟩, h3⟩
  have ex : ∀ n, ∃ t, Usual r t n ∧ (t.head? = some '0' → n = 0) := by
    intro n
    induction n using Nat.strongRecOn with
    | ind n ih =>
      by_cases hn : n < r
      · obtain ⟨c, hc, hd, h0⟩ := dig n hn
        refine ⟨[c], ⟨by simp, ⟨n, 0, hd, rfl, by simp⟩, by simpa using hc, ?_⟩, ?_⟩
        · intro h; simp at h; rw [h]
        · intro h; simp at h; exact h0 h
      · obtain ⟨t, ⟨hne, hden, hlow, hz⟩, hz'⟩ := ih (n / r) (Nat.div_lt_self (by omega) (by omega))
        obtain ⟨c, hc, hd, h0⟩ := dig (n % r) (Nat.mod_lt n (by omega))
        have h := hden.snoc hd
        have e : n / r * r + n % r = n := by rw [Nat.mul_comm]; exact Nat.div_add_mod n r
        rw [e] at h
        have hh : (t ++ [c]).head? = t.head? := by
          cases t with
          | nil => exact absurd rfl hne
          | cons x t => rfl
        have hpos : 0 < n / r := Nat.div_pos (by omega) (by omega)
        refine ⟨t ++ [c], ⟨by simp, h, ?_, ?_⟩, ?_⟩
        · intro x hx
          rcases List.mem_append.mp hx with hx | hx
          · exact hlow x hx
          · simp at hx; rw [hx]; exact hc
        · intro h0'; rw [hh] at h0'; have := hz' h0'; omega
        · intro h0'; rw [hh] at h0'; have := hz' h0'; omega
  -- the length of a usual writing is determined
  have len : ∀ t, Usual r t n → (n = 0 ∧ t.length = 1) ∨
      (0 < n ∧ r ^ (t.length - 1) ≤ n ∧ n < r ^ t.length) := by
    rintro t ⟨hne, hden, hlow, hz⟩
    have hb := hden.bound (by omega)
    cases t with
    | nil => exact absurd rfl hne
    | cons c l =>
      obtain ⟨v, m, hv, hm, hn⟩ := hden
      by_cases h0 : v = 0
      · have := hz (by rw [zero_digit hv h0]; rfl)
        simp only [List.cons.injEq] at this
        obtain ⟨-, rfl⟩ := this
        simp only [Denotes] at hm
        left; subst hm h0; simp at hn; exact ⟨hn, rfl⟩
      · right
        have h1 : r ^ l.length ≤ v * r ^ l.length := Nat.le_mul_of_pos_left _ (by omega)
        have hp : 0 < r ^ l.length := Nat.pow_pos (by omega)
        simp only [List.length_cons, Nat.add_sub_cancel]
        refine ⟨by omega, by omega, by simpa using hb⟩
  obtain ⟨t, ht, -⟩ := ex n
  refine ⟨t, ht, fun t' ht' => ?_⟩
  have hlen : t'.length = t.length := by
    rcases len t ht with ⟨h0, h1⟩ | ⟨h0, h1, h2'⟩ <;> rcases len t' ht' with ⟨h0', h1'⟩ | ⟨h0', h1', h2''⟩
    · omega
    · omega
    · omega
    · have a := (Nat.pow_lt_pow_iff_right (by omega : 1 < r)).mp (Nat.lt_of_le_of_lt h1 h2'')
      have b := (Nat.pow_lt_pow_iff_right (by omega : 1 < r)).mp (Nat.lt_of_le_of_lt h1' h2')
      have := List.length_pos_iff.mpr ht.1
      have := List.length_pos_iff.mpr ht'.1
      omega
  exact denotes_length_unique h36 hlen ht'.2.1 ht.2.1 ht'.2.2.1 ht.2.2.1

/-- **C60 (round trip in every radix).** The usual writing of a number of the type, in any radix from
2 to 36, is read back, with or without a sign. -/
theorem C60_round_trip_every_radix (signed : Bool) (bits r : Nat) (h2 : 2 ≤ r) (h36 : r ≤ 36) (n : Nat)
    (t : List Char) (ht : Usual r t n) :
    (InType signed bits n → fromStrRadix signed bits r t = some (n : Int)) ∧
    (InType signed bits n → fromStrRadix signed bits r ('+' :: t) = some (n : Int)) ∧
    (signed = true → InType signed bits (-n) → fromStrRadix signed bits r ('-' :: t) = some (-(n : Int))) := by
  refine ⟨fun h => ?_, fun h => ?_, fun hs h => ?_⟩
  · exact (C60_from_str_radix signed bits r h2 h36 _ _).mpr ⟨⟨_, n, ht.1, ht.2.1, .inl ⟨rfl, rfl⟩⟩, h⟩
  · exact (C60_from_str_radix signed bits r h2 h36 _ _).mpr ⟨⟨_, n, ht.1, ht.2.1, .inr (.inl ⟨rfl, rfl⟩)⟩, h⟩
  · exact (C60_from_str_radix signed bits r h2 h36 _ _).mpr ⟨⟨_, n, ht.1, ht.2.1, .inr (.inr ⟨hs, rfl, rfl⟩)⟩, h⟩

/-- **C60 (the pattern reads it back in every radix).** `digit(r).many1()` with `from_str_radix(r)`, at
the usual writing of a number of the type followed by anything but a digit, yields the number. -/
theorem C60_number_every_radix (G : Rules Char NumVal) (signed : Bool) (bits r : Nat) (h2 : 2 ≤ r) (h36 : r ≤ 36)
    (pre tl t : List Char) (n : Nat) (ht : Usual r t n) (hin : InType signed bits n)
    (htl : ∀ c tl', tl = c :: tl' → ¬ ∃ v, IsDigit r c v) :
    Constructs G textH none (pre ++ (t ++ tl)) (numPat signed bits r) () (blen pre)
      (.ok (.base (.num n)) () (blen pre + blen t)) := by
  have hall : ∀ {t n}, Denotes r t n → ∀ c ∈ t, ∃ v, IsDigit r c v := by
    intro t
    induction t with
    | nil => simp
    | cons a t ih =>
      rintro n ⟨v, m, hv, hm, -⟩ c hc
      rcases List.mem_cons.mp hc with rfl | hc
      · exact ⟨v, hv⟩
      · exact ih hm c hc
  exact (C60_number G signed bits r h2 h36 pre (t ++ tl) t ⟨tl, rfl, hall ht.2.1, htl⟩ _).mpr
    (.inr ⟨ht.1, n, ht.2.1, .inl ⟨hin, rfl⟩⟩)

/-- 1295 in radix 36 is `zz`. -/
example : Usual 36 ['z', 'z'] 1295 :=
  ⟨by simp, ⟨35, 35, ⟨by decide, .inl (by decide +kernel)⟩, ⟨35, 0, ⟨by decide, .inl (by decide +kernel)⟩, rfl, rfl⟩, rfl⟩,
    by decide +kernel, by decide⟩

end Neure
