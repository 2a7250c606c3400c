import Verif.LinearLink
import Verif.PropsWork
import Verif.PropsCfg
/-!
# C81: where one item of lookahead decides, the number of calls is linear
-/

namespace Neure

set_option linter.unusedSectionVars false
set_option linter.unusedSimpArgs false

open Demo

variable {ι β σ : Type} [Item ι] {G : Rules ι β} {H : Handler ι β σ} {pol : Option (Pat ι β)}
  {b : ι → Bool} {P : Bool → Nat → Plan ι} {N : Bool → Nat → Bool} {T : Bool → Nat → ι → Bool}
  {O : Bool → Nat → Option ι → Prop} {w : Bool}
  {S : Pat ι β → Nat → Bool → (ι → Bool) → Prop}

/-- **C81 (matching).** The rules and the pattern `p` make the calls of plans of which the next
item decides everything, in a context that skips nothing or the blanks `b`.  Then there are two
numbers such that matching `p`, at any position of any text and whether it succeeds or fails,
makes at most `A` calls per item that follows and is no blank, and `B` more. -/
theorem C81_matching (hpol : SkipsBlanks w pol b) (hS : ∀ p k n f, S p k n f → Measured G pol b p k n f)
    (hG : CallsRules w S G P) (h : OneAhead b P N T O)
    {p : Pat ι β} {e : Plan ι} (hp : Calls w S p e) (hc : e.Clear b) (hd : e.Decided N T O fun _ => False) :
    ∃ A B, ∀ pre x r o' c, RunsWork G pol (pre ++ x) p (blen pre) r o' c →
      c ≤ A * (x.countP fun a => !b a) + B := by
  obtain ⟨A, B, hAB⟩ := Plan.takes_linear (e := e.via w) h (by cases w <;> exact hc) (by cases w <;> exact hd)
  refine ⟨A, B, fun pre x r o' c ⟨n, hn⟩ => ?_⟩
  have := does_mat (P := P) hpol (does_parse hS hG hpol n p e hp) pre x ((), 0) rfl r _ _ hn
  cases r with
  | ok a =>
    obtain ⟨t, y, k, h1, h2, h3, h4⟩ := this
    exact Nat.le_trans (by simpa using h4) (hAB _ _ _ h3)
  | error er =>
    obtain ⟨t, z, r, k, h1, h2, h3, _, h4⟩ := this
    exact Nat.le_trans (by simpa using h4) (hAB _ _ _ h3)

/-- **C81 (building).** The same for building values: the two numbers depend neither on the
handler nor on the closures of `map`. -/
theorem C81_building (hpol : SkipsBlanks w pol b) (hS : ∀ p k n f, S p k n f → Measured G pol b p k n f)
    (hG : CallsRules w S G P) (hB : BuildsRules w S G P) (h : OneAhead b P N T O)
    {p : Pat ι β} {e : Plan ι} (hp : Builds w S p e) (hc : e.Clear b) (hd : e.Decided N T O fun _ => False) :
    ∃ A B, ∀ {σ : Type} (H : Handler ι β σ) st pre x r st' o' c,
      ConstructsWork G H pol (pre ++ x) p st (blen pre) r st' o' c → c ≤ A * (x.countP fun a => !b a) + B := by
  obtain ⟨A, B, hAB⟩ := Plan.takes_linear (e := e) h hc hd
  refine ⟨A, B, fun H st pre x r st' o' c ⟨n, hn⟩ => ?_⟩
  have := does_con (P := P) (H := H) hS hG hB hpol n p e hp pre x (st, 0) rfl r _ _ hn
  cases r with
  | ok a =>
    obtain ⟨t, y, k, h1, h2, h3, h4⟩ := this
    exact Nat.le_trans (by simpa using h4) (hAB _ _ _ h3)
  | error er =>
    obtain ⟨t, z, r, k, h1, h2, h3, _, h4⟩ := this
    exact Nat.le_trans (by simpa using h4) (hAB _ _ _ h3)

/-- **C81 (it has to decide).** Two alternatives that begin alike: no two numbers do. -/
theorem C81_lookahead_matters :
    ¬ ∃ A B, ∀ pre x r o' c, RunsWork Work.GE none (pre ++ x) (.cell 0) (blen pre) r o' c → c ≤ A * x.length + B := by
  rintro ⟨A, B, h⟩
  obtain ⟨c, hc, e⟩ := C78_recursion_is_exponential (2 * (A + B))
  have hk := h [] (Work.nest (2 * (A + B))) _ _ _ hc
  have hl : (Work.nest (2 * (A + B))).length = 2 * (2 * (A + B)) + 1 := by
    simp [Work.nest]; omega
  rw [hl] at hk
  generalize hkk : A + B = k at *
  have h1 : k < 2 ^ k := Nat.lt_two_pow_self
  have h2 : (k + 1) * (k + 1) ≤ 2 ^ k * 2 ^ k := Nat.mul_le_mul h1 h1
  rw [← Nat.pow_add, show k + k = 2 * k by omega] at h2
  have h3 : A * (2 * (2 * k) + 1) ≤ k * (2 * (2 * k) + 1) := Nat.mul_le_mul_right _ (by omega)
  have h4 : k * (2 * (2 * k) + 1) = 4 * (k * k) + k := by
    rw [Nat.mul_add, Nat.mul_one, ← Nat.mul_assoc 2 2, Nat.mul_left_comm]
  have h5 : (k + 1) * (k + 1) = k * k + 2 * k + 1 := by
    rw [Nat.add_mul, Nat.mul_add]; omega
  omega

/-! ## Sums, with spaces and without -/

namespace Sum

/-- The calls of `Sum.rules` (`expr = term ("+" term)*`, `term = "x" | "(" expr ")"`). -/
def plans (w : Bool) : Bool → Nat → Plan Char
  | false, 0 => .call (.seq ((Plan.nt false 1).via w) (.via w
      (.call (.rep (.via w (.call (.seq ((Plan.leaf (.lit ['+'])).via w) ((Plan.nt false 1).via w)))) 0 none))))
  | false, 1 => .call (.alt ((Plan.leaf (.lit ['x'])).via w) (.via w
      (.call (.seq ((Plan.leaf (.lit ['('])).via w) (.seq ((Plan.nt false 0).via w) ((Plan.leaf (.lit [')'])).via w))))))
  | true, 0 => .call (.seq (.nt true 1)
      (.call (.rep (.call (.seq (.call (.may ((Plan.leaf (.lit ['+'])).via w))) (.nt true 1))) 0 none)))
  | true, 1 => .call (.alt (.call (.may ((Plan.leaf (.lit ['x'])).via w)))
      (.call (.seq ((Plan.leaf (.lit ['('])).via w) (.seq (.nt true 0) ((Plan.leaf (.lit [')'])).via w)))))
  | _, _ => .fail

theorem calls (w : Bool) : CallsRules w (fun _ _ _ _ => False) rules (plans w) := by
  intro i
  match i with
  | 0 => exact .inl ⟨_, rfl, .thn (.cell 1) (.rep _ 0 none (.thn (.leaf trivial (.lit _)) (.cell 1))
      ⟨by simp, by simp [Bound.allowsFrom, Bound.allowsUpTo]⟩)⟩
  | 1 => exact .inl ⟨_, rfl, .or (.leaf trivial (.lit _)) (.enclose (.leaf trivial (.lit _)) (.cell 0) (.leaf trivial (.lit _)))⟩
  | n + 2 => exact .inr ⟨rfl, rfl⟩

theorem builds (w : Bool) : BuildsRules w (fun _ _ _ _ => False) rules (plans w) := by
  intro i
  match i with
  | 0 => exact .inl ⟨_, rfl, .thn (.cell 1) (.rep _ 0 none (.thn (.leaf trivial (.lit _)) (.cell 1))
      ⟨by simp, by simp [Bound.allowsFrom, Bound.allowsUpTo]⟩)⟩
  | 1 => exact .inl ⟨_, rfl, .or (.leaf trivial (.lit _)) (.enclose (.leaf trivial (.lit _)) (.cell 0) (.leaf trivial (.lit _)))⟩
  | n + 2 => exact .inr ⟨rfl, rfl⟩

theorem oneAhead (w : Bool) (b : Char → Bool) (hb : ∀ c, c ∈ ['x', '+', '(', ')'] → b c = false) :
    OneAhead b (plans w) (fun _ => Sum.N) (fun _ => Sum.T) (fun _ => Sum.O) := by
  simp only [List.mem_cons, List.not_mem_nil, or_false, forall_eq_or_imp, forall_eq] at hb
  have fin : ∀ k i, plans w k i ∈ [plans w false 0, plans w false 1, plans w true 0, plans w true 1, .fail] := by
    intro k i
    match k, i with
    | false, 0 | false, 1 | true, 0 | true, 1 => simp
    | false, i + 2 | true, i + 2 => simp [plans]
  refine ⟨?_, ?_, ?_, ?_, ⟨_, fin⟩, fun _ i => if i = 0 then 1 else 0, 1, ?_⟩ <;> intro k i
  all_goals
    match k, i with
    | false, 0 | false, 1 | true, 0 | true, 1 =>
      cases w <;> simp [plans, Plan.via, Plan.nullable, Plan.first, Plan.Decided, Plan.Clear, Plan.leftBelow, Plan.Next,
        Sum.N, Sum.T, Sum.O, Peg.nullable, Peg.begins, Peg.first, Peg.lit, hb] <;> grind
    | false, i + 2 | true, i + 2 =>
      simp [plans, Plan.nullable, Plan.first, Plan.Decided, Plan.Clear, Plan.leftBelow]
      try (split <;> omega)

/-- Matching and building sums with spaces skipped: linear. -/
example : ∃ A B, ∀ pre x r o' c,
    RunsWork rules (some (.many0 (.item ' ') .empty)) (pre ++ x) (.cell 0) (blen pre) r o' c →
      c ≤ A * (x.countP fun a => !Neu.isMatch (.item ' ') a) + B :=
  C81_matching (w := true) ⟨.item ' ', rfl, rfl⟩ (fun _ _ _ _ h => h.elim) (calls true) (oneAhead true _ (by simp [Neu.isMatch])) (.cell 0)
    trivial (by simp [Plan.Decided])

example : ∃ A B, ∀ {σ : Type} (H : Handler Char Nat σ) st pre x r st' o' c,
    ConstructsWork rules H none (pre ++ x) (.cell 0) st (blen pre) r st' o' c → c ≤ A * (x.countP fun _ => !false) + B :=
  C81_building (w := false) ⟨rfl, rfl⟩ (fun _ _ _ _ h => h.elim) (calls false) (builds false) (oneAhead false _ (by simp)) (.cell 0)
    trivial (by simp [Plan.Decided])

end Sum

end Neure
