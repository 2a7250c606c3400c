import Verif.CoreInv
import Verif.Eqs
/-!
# Unit patterns: from the scanning loop to runs
-/

namespace Neure

set_option linter.unusedSectionVars false

variable {ι β : Type} [Item ι] {G : Rules ι β} {pol : Option (Pat ι β)} {d : List ι}

theorem testItem_iff {o i : Nat} {u : Neu ι} {c : Cond ι β} {x : ι} (hv : Valid d (o + i))
    (r : Out Bool) :
    testItem (matL G pol) d o u c (i, x) = some r ↔ ItemGives G pol d o u c i x r := by
  unfold testItem ItemGives
  cases hu : u.isMatch x with
  | false => simp [eq_comm]
  | true =>
    simp only [if_true, true_and, Bool.true_eq_false, false_and, or_false]
    cases c with
    | empty => simp [check, CondGives, eq_comm]
    | fn f => simp [check, CondGives]
    | regex p =>
      obtain ⟨pre, rest, rfl, hl⟩ := hv
      have ho : origAt (pre ++ rest) (o + i) = .ok rest := by
        rw [origAt_ok, ← hl]; exact dropB_append _ _
      simp only [check, CondGives, ho, Matches, Fails, runs_iff]
      have huniq : ∀ pre' rest', pre ++ rest = pre' ++ rest' → blen pre' = o + i → rest' = rest := by
        intro pre' rest' h1 h2
        have e1 := dropB_append pre' rest'
        rw [← h1, h2, ← hl, dropB_append] at e1
        exact (Option.some.inj e1).symm
      constructor
      · intro h
        refine ⟨pre, rest, rfl, hl, ?_⟩
        cases hm : matL G pol rest p 0 with
        | none => simp [hm] at h
        | some v =>
          cases v with
          | ok s o' => simp [hm] at h; exact .inl ⟨h.symm, _, _, rfl⟩
          | err e o' => simp [hm] at h; exact .inr (.inl ⟨h.symm, _, _, rfl⟩)
          | panic => simp [hm] at h; exact .inr (.inr ⟨h.symm, rfl⟩)
      · rintro ⟨pre', rest', h1, h2, h⟩
        cases huniq _ _ h1 h2
        rcases h with ⟨rfl, _, _, h⟩ | ⟨rfl, _, _, h⟩ | ⟨rfl, h⟩ <;> rw [h]

/-- Forward direction for the scanning loop that ends normally. -/
theorem scan_of {test : Nat × ι → Option (Out Bool)} {more : Nat → Bool} {cnt : Nat}
    {beg : Option Nat} {i : Nat} {run rest : List ι}
    (hacc : ∀ a x b, run = a ++ x :: b →
      more (cnt + a.length) = true ∧ test (i + blen a, x) = some (.ok true))
    (hend : ∀ x b, rest = x :: b → more (cnt + run.length) = true →
      test (i + blen run, x) = some (.ok false)) :
    ∃ s, scan test more cnt beg (indices i (run ++ rest)) = some (.ok s) := by
  induction run generalizing cnt beg i with
  | nil =>
    cases rest with
    | nil => exact ⟨_, rfl⟩
    | cons x b =>
      simp only [List.nil_append, indices_cons, scan]
      split
      · next hm =>
        have := hend x b rfl (by simpa using hm)
        simp only [blen_nil, Nat.add_zero] at this
        rw [this]; exact ⟨_, rfl⟩
      · exact ⟨_, rfl⟩
  | cons y run ih =>
    have h0 := hacc [] y run rfl
    simp only [List.length_nil, Nat.add_zero, blen_nil] at h0
    simp only [List.cons_append, indices_cons, scan]
    rw [if_pos h0.1, h0.2]
    refine ih (fun a x b h => ?_) (fun x b h hm => ?_)
    · have := hacc (y :: a) x b (by simp [h])
      simp only [List.length_cons, blen_cons] at this
      rw [show cnt + 1 + a.length = cnt + (a.length + 1) by omega,
        show i + Item.size y + blen a = i + (Item.size y + blen a) by omega]
      exact this
    · have := hend x b h (by simpa [Nat.add_assoc, Nat.add_comm 1] using hm)
      rw [show i + Item.size y + blen run = i + blen (y :: run) by simp; omega]
      exact this

theorem scan_err_iff {test : Nat × ι → Option (Out Bool)} {more : Nat → Bool} {cnt : Nat}
    {beg : Option Nat} {i : Nat} {l : List ι} {e : Error} :
    scan test more cnt beg (indices i l) = some (.err e) ↔
      ∃ run x rest, l = run ++ x :: rest ∧
        (∀ a y b, run = a ++ y :: b →
          more (cnt + a.length) = true ∧ test (i + blen a, y) = some (.ok true)) ∧
        more (cnt + run.length) = true ∧ test (i + blen run, x) = some (.err e) := by
  induction l generalizing cnt beg i with
  | nil => simp [scan]
  | cons z l ih =>
    simp only [indices_cons, scan]
    constructor
    · intro h
      split at h
      · next hm =>
        split at h
        · cases h
        · cases h
        · next e' ht => cases h; exact ⟨[], z, l, rfl, by simp, by simpa using hm, by simpa using ht⟩
        · next ht =>
          obtain ⟨run, x, rest, rfl, hacc, hm', hx⟩ := ih.mp h
          refine ⟨z :: run, x, rest, rfl, ?_, ?_, ?_⟩
          · intro a y b hab
            cases a with
            | nil =>
              simp only [List.nil_append, List.cons.injEq] at hab
              obtain ⟨rfl, rfl⟩ := hab
              exact ⟨by simpa using hm, by simpa using ht⟩
            | cons w a =>
              simp only [List.cons_append, List.cons.injEq] at hab
              obtain ⟨rfl, rfl⟩ := hab
              have := hacc a y b rfl
              rw [show cnt + (z :: a).length = cnt + 1 + a.length by simp; omega,
                show i + blen (z :: a) = i + Item.size z + blen a by simp; omega]
              exact this
          · rw [show cnt + (z :: run).length = cnt + 1 + run.length by simp; omega]; exact hm'
          · rw [show i + blen (z :: run) = i + Item.size z + blen run by simp; omega]; exact hx
        · cases h
      · cases h
    · rintro ⟨run, x, rest, hl, hacc, hm, hx⟩
      cases run with
      | nil =>
        simp only [List.nil_append, List.cons.injEq] at hl
        obtain ⟨rfl, rfl⟩ := hl
        simp only [List.length_nil, Nat.add_zero, blen_nil] at hm hx
        rw [if_pos hm, hx]
      | cons y run =>
        simp only [List.cons_append, List.cons.injEq] at hl
        obtain ⟨rfl, rfl⟩ := hl
        have h0 := hacc [] z run rfl
        simp only [List.length_nil, Nat.add_zero, blen_nil] at h0
        rw [if_pos h0.1, h0.2]
        refine ih.mpr ⟨run, x, rest, rfl, fun a w b hab => ?_, ?_, ?_⟩
        · have := hacc (z :: a) w b (by simp [hab])
          rw [show cnt + 1 + a.length = cnt + (z :: a).length by simp; omega,
            show i + Item.size z + blen a = i + blen (z :: a) by simp; omega]
          exact this
        · rw [show cnt + 1 + run.length = cnt + (z :: run).length by simp; omega]; exact hm
        · rw [show i + Item.size z + blen run = i + blen (z :: run) by simp; omega]; exact hx

/-- In `indices`, members of a run are its items at their offsets. -/
theorem mem_indices_of {i : Nat} {a b : List ι} {x : ι} : (i + blen a, x) ∈ indices i (a ++ x :: b) := by
  rw [indices_append]; simp

/-- The scan of a unit pattern from `o`: normal end ↔ greedy run. -/
theorem scan_greedy {o : Nat} {u : Neu ι} {c : Cond ι β} {more : Nat → Bool} {post : List ι}
    (hd : dropB d o = some post) :
    ∀ run rest, post = run ++ rest →
      ((∃ s, scan (testItem (matL G pol) d o u c) more 0 none (indices 0 post) = some (.ok s) ∧
        ScanPost (testItem (matL G pol) d o u c) more 0 none 0 post s run rest) ↔
      GreedyRun G pol d o u c (fun k => more (k - 1) = true) run rest) := by
  intro run rest hpost
  have hv : ∀ a b, post = a ++ b → Valid d (o + blen a) := fun a b h => by
    subst h; exact Valid.add hd
  constructor
  · rintro ⟨s, _, hp⟩
    obtain ⟨pre, h1, h2⟩ := dropB_eq_some.mp hd
    refine ⟨⟨pre, by simp [h1, hpost], h2⟩, ?_, ?_⟩
    · intro a x b hab
      have hx : (0 + blen a, x) ∈ indices 0 run := by rw [hab]; exact mem_indices_of
      have := hp.acc _ hx
      rw [Nat.zero_add] at this
      rw [testItem_iff (hv a (x :: b ++ rest) (by rw [hpost, hab]; simp))] at this
      refine ⟨?_, this⟩
      have := hp.more_all a.length (by rw [hab]; simp)
      simpa using this
    · intro x b hr hm
      rcases hp.why with h | h | ⟨y, tl, h, ht⟩
      · rw [h] at hr; cases hr
      · rw [hp.cnt_eq, Nat.zero_add] at h
        simp only [Nat.add_sub_cancel] at hm
        rw [h] at hm; cases hm
      · rw [h] at hr; cases hr
        rw [Nat.zero_add, testItem_iff (hv run (x :: b) (by rw [hpost, h]))] at ht
        exact ht
  · rintro ⟨_, hacc, hend⟩
    obtain ⟨s, hs⟩ := scan_of (test := testItem (matL G pol) d o u c) (more := more) (cnt := 0)
      (beg := none) (i := 0) (run := run) (rest := rest)
      (fun a x b hab => by
        have := hacc a x b hab
        refine ⟨by simpa using this.1, ?_⟩
        rw [Nat.zero_add, testItem_iff (hv a (x :: b ++ rest) (by rw [hpost, hab]; simp))]
        exact this.2)
      (fun x b hr hm => by
        rw [Nat.zero_add, testItem_iff (hv run (x :: b) (by rw [hpost, hr]))]
        exact hend x b hr (by simpa using hm))
    rw [← hpost] at hs
    refine ⟨s, hs, ?_⟩
    obtain ⟨run', rest', hp⟩ := scan_ok hs
    -- the two decompositions agree
    have heq : ∀ (p1 p2 r1 r2 : List ι), p1 ++ r1 = p2 ++ r2 → (∀ a x b, p1 = a ++ x :: b →
        more (a.length) = true ∧ testItem (matL G pol) d o u c (blen a, x) = some (.ok true)) →
        (∀ x b, r2 = x :: b → more p2.length = false ∨
          testItem (matL G pol) d o u c (blen p2, x) = some (.ok false)) → p1.length ≤ p2.length := by
      intro p1 p2 r1 r2 h12 h1 h2
      apply Nat.le_of_not_lt
      intro hlt
      obtain ⟨t, ht⟩ : ∃ t, p1 = p2 ++ t := by
        have := congrArg (List.take p1.length) h12
        rw [List.take_left', List.take_append] at this
        · rw [List.take_of_length_le (by omega)] at this
          exact ⟨_, this⟩
        · rfl
      subst ht
      cases t with
      | nil => simp at hlt
      | cons x t =>
        rw [List.append_assoc, List.append_cancel_left_eq] at h12
        obtain ⟨g1, g2⟩ := h1 p2 x t rfl
        rcases h2 x (t ++ r1) (by simpa using h12.symm) with h | h
        · rw [g1] at h; cases h
        · rw [g2] at h; cases h
    have A : ∀ a x b, run = a ++ x :: b →
        more (a.length) = true ∧ testItem (matL G pol) d o u c (blen a, x) = some (.ok true) := by
      intro a x b hab
      have := hacc a x b hab
      refine ⟨by simpa using this.1, ?_⟩
      rw [testItem_iff (hv a (x :: b ++ rest) (by rw [hpost, hab]; simp))]
      exact this.2
    have A' : ∀ a x b, run' = a ++ x :: b →
        more (a.length) = true ∧ testItem (matL G pol) d o u c (blen a, x) = some (.ok true) := by
      intro a x b hab
      refine ⟨?_, ?_⟩
      · have := hp.more_all a.length (by rw [hab]; simp)
        simpa using this
      · have := hp.acc (0 + blen a, x) (by rw [hab]; exact mem_indices_of)
        simpa using this
    have B : ∀ x b, rest = x :: b → more run.length = false ∨
        testItem (matL G pol) d o u c (blen run, x) = some (.ok false) := by
      intro x b hr
      cases hm : more run.length with
      | false => exact .inl rfl
      | true =>
        refine .inr ?_
        rw [testItem_iff (hv run (x :: b) (by rw [hpost, hr]))]
        exact hend x b hr (by simpa using hm)
    have B' : ∀ x b, rest' = x :: b → more run'.length = false ∨
        testItem (matL G pol) d o u c (blen run', x) = some (.ok false) := by
      intro x b hr
      rcases hp.why with h | h | ⟨y, tl, h, ht⟩
      · rw [h] at hr; cases hr
      · rw [hp.cnt_eq, Nat.zero_add] at h; exact .inl h
      · rw [h] at hr; cases hr; exact .inr (by simpa using ht)
    have hs' : run ++ rest = run' ++ rest' := by rw [← hpost, ← hp.split]
    have l1 := heq run run' rest rest' hs' A B'
    have l2 := heq run' run rest' rest hs'.symm A' B
    obtain ⟨h1, h2⟩ := List.append_inj hs' (by omega)
    subst h1; subst h2
    exact hp

theorem scan_error {o : Nat} {u : Neu ι} {c : Cond ι β} {more : Nat → Bool} {post : List ι} {e : Error}
    (hd : dropB d o = some post) :
    scan (testItem (matL G pol) d o u c) more 0 none (indices 0 post) = some (.err e) ↔
      ScanError G pol d o u c (fun k => more (k - 1) = true) e := by
  have hv : ∀ a b, post = a ++ b → Valid d (o + blen a) := fun a b h => by
    subst h; exact Valid.add hd
  rw [scan_err_iff]
  constructor
  · rintro ⟨run, x, rest, h1, hacc, hm, hx⟩
    obtain ⟨pre, h2, h3⟩ := dropB_eq_some.mp hd
    refine ⟨pre, run, x, rest, by simp [h2, h1], h3, ?_, by simpa using hm, ?_⟩
    · intro a y b hab
      have := hacc a y b hab
      refine ⟨by simpa using this.1, ?_⟩
      have h := this.2
      rw [Nat.zero_add, testItem_iff (hv a (y :: b ++ x :: rest) (by rw [h1, hab]; simp))] at h
      exact h
    · rw [Nat.zero_add, testItem_iff (hv run (x :: rest) h1)] at hx; exact hx
  · rintro ⟨pre, run, x, rest, h1, h2, hacc, hm, hx⟩
    have h3 : post = run ++ x :: rest := by
      rw [h1, ← h2, List.append_assoc, dropB_append] at hd; exact (Option.some.inj hd).symm
    refine ⟨run, x, rest, h3, fun a y b hab => ?_, by simpa using hm, ?_⟩
    · have := hacc a y b hab
      refine ⟨by simpa using this.1, ?_⟩
      rw [Nat.zero_add, testItem_iff (hv a (y :: b ++ x :: rest) (by rw [h3, hab]; simp))]
      exact this.2
    · rw [Nat.zero_add, testItem_iff (hv run (x :: rest) h3)]; exact hx

end Neure
