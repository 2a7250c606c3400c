import Verif.PegCond
/-!
# C58, one direction: every run is a derivation of the parsing expression
-/

namespace Neure

set_option linter.unusedSectionVars false
set_option linter.unusedSimpArgs false

variable {ι β : Type} [Item ι] {G : Rules ι β} {R : Nat → Peg ι}

/-- `more`/`ok` are the loop condition and the final test of "`m` to `n` times". -/
structure LoopIs (more ok : Nat → Bool) (m : Nat) (n : Option Nat) : Prop where
  le : ∀ n', n = some n' → m ≤ n'
  more_iff : ∀ k, more k = true ↔ ∀ n', n = some n' → k < n'
  ok_iff : ∀ k, ok k = true ↔ m ≤ k ∧ ∀ n', n = some n' → k ≤ n'

theorem counts_loop {r : CRange} {m : Nat} {n : Option Nat} (h : Counts r m n) :
    LoopIs r.more r.contains m n := by
  refine ⟨h.1, fun k => ?_, fun k => ?_⟩
  · rw [Neure.more_iff]
    have hlo : ∀ j, m ≤ j → r.lo.allowsFrom j := by
      intro j hj
      have h0 := ((h.2 m).mpr ⟨Nat.le_refl _, h.1⟩).1
      revert h0; cases r.lo <;> simp only [Bound.allowsFrom, forall_const] <;> omega
    constructor
    · intro hk n' hn
      refine Nat.lt_of_not_le fun hle => ?_
      have := (h.2 (k + 1)).mp ⟨hlo _ (by have := h.1 n' hn; omega), hk⟩
      have := this.2 n' hn; omega
    · intro hk
      have : r.hi.allowsUpTo (max m (k + 1)) :=
        ((h.2 _).mpr ⟨Nat.le_max_left _ _, fun n' hn => by
          have := hk n' hn; have := h.1 n' hn; omega⟩).2
      exact Bound.allowsUpTo_mono (Nat.le_max_right _ _) this
  · rw [Neure.contains_iff]; exact h.2 k

theorem collect_loop (m : Nat) : LoopIs (fun _ => true) (fun c => decide (c ≥ m)) m none :=
  ⟨by simp, by simp, by simp⟩

theorem append_len_eq {a b c d : List ι} (h : a ++ b = c ++ d) (hl : blen a = blen c) :
    a = c ∧ b = d := by
  induction a generalizing c with
  | nil =>
    cases c with
    | nil => exact ⟨rfl, h⟩
    | cons x c => have := blen_pos_cons x c; simp only [blen_nil] at hl; omega
  | cons y a ih =>
    cases c with
    | nil => have := blen_pos_cons y a; simp only [blen_nil] at hl; omega
    | cons x c =>
      simp only [List.cons_append, List.cons.injEq] at h
      obtain ⟨rfl, h⟩ := h
      have hl : blen a = blen c := by
        simp only [blen, List.map_cons, List.sum_cons] at hl ⊢; omega
      obtain ⟨rfl, rfl⟩ := ih h hl
      exact ⟨rfl, rfl⟩

/-- The induction hypothesis of the soundness proof. -/
def SoundN (G : Rules ι β) (R : Nat → Peg ι) (n : Nat) : Prop :=
  ∀ p e, AsPeg p e → ∀ pre x res, parse G n none (pre ++ x) p (blen pre) = some res →
    SoundAt R e pre x res

/-- Testing an item with a condition is running the guard. -/
theorem regex_test {mt : List ι → Pat ι β → Nat → Option (Res Span)} {q : Pat ι β} {e : Peg ι} (u : Neu ι) {pre x : List ι}
    (hq : ∀ y res, mt y q 0 = some res → SoundAt R e [] y res) :
    TestOk R (testItem mt (pre ++ x) (blen pre) u (.regex q)) (.guard u.isMatch e) 0 x := by
  intro t a y hx r hr
  subst hx
  simp only [testItem] at hr
  cases ha : u.isMatch a with
  | false =>
    simp only [ha, Bool.false_eq_true, if_false, Option.some.injEq] at hr
    exact ⟨false, hr.symm, guard_no ha⟩
  | true =>
    have hd : origAt (pre ++ (t ++ a :: y)) (blen pre + (0 + blen t)) = .ok (a :: y) := by
      rw [origAt_ok, Nat.zero_add, ← blen_append, ← List.append_assoc]; exact dropB_append _ _
    simp only [ha, if_true, check, hd] at hr
    cases hm : mt (a :: y) q 0 with
    | none => simp [hm] at hr
    | some res =>
      have hs := hq _ _ hm
      cases res with
      | panic => exact hs.panic.elim
      | ok s o =>
        obtain ⟨_, z, _, hf, _⟩ := hs.ok
        simp only [hm, Option.some.injEq] at hr
        exact ⟨true, hr.symm, guard_cond ha hf⟩
      | err e' o =>
        simp only [hm, Option.some.injEq] at hr
        exact ⟨false, hr.symm, guard_cond ha hs.err.1⟩

theorem SoundN.test {n : Nat} (ih : SoundN G R n) {q : Pat ι β} {e : Peg ι} (hq : AsPeg q e) (u : Neu ι) {pre x : List ι} :
    TestOk R (testItem (parse G n none) (pre ++ x) (blen pre) u (.regex q)) (.guard u.isMatch e) 0 x :=
  regex_test u fun y res h => ih q e hq [] y res h

/-- The repetition loop at count `c`, `dn` already covered. -/
theorem sound_repLoop {n : Nat} (ih : SoundN G R n) {p : Pat ι β} {e : Peg ι} (hp : AsPeg p e)
    {more ok : Nat → Bool} {m : Nat} {hi : Option Nat} (hl : LoopIs more ok m hi) (er : Error)
    (fuel c : Nat) (hc : ∀ h, hi = some h → c ≤ h) (pre dn x : List ι) (res : Res Span)
    (h : repLoop (parse G n none (pre ++ dn ++ x)) p more (finish ok er (blen pre)) fuel c
      ⟨blen pre, blen dn⟩ (blen (pre ++ dn)) = some res) :
    ∃ r, Ford R (.rep e (m - c) (hi.map (· - c))) x r ∧
      match r with
      | some y => ∃ t, x = t ++ y ∧ res = .ok ⟨blen pre, blen (dn ++ t)⟩ (blen pre + blen (dn ++ t))
      | none => ∃ e, res = .err e (blen pre) := by
  induction fuel generalizing c dn x with
  | zero => simp [repLoop] at h
  | succ fuel ihf =>
    simp only [repLoop] at h
    split at h
    · next hm =>
      rw [hl.more_iff] at hm
      have hne : hi.map (· - c) ≠ some 0 := by
        cases hi with
        | none => simp
        | some k => have := hm k rfl; simp; omega
      rw [caseR_some] at h
      rcases h with ⟨h1, rfl⟩ | ⟨s, o1, h1, h2⟩ | ⟨e1, o1, h1, h2⟩
      · exact (ih p e hp _ _ _ h1).panic.elim
      · obtain ⟨t, y, rfl, hf, rfl, rfl⟩ := (ih p e hp _ _ _ h1).ok
        rw [blen_append, addK, adj] at h2
        simp only at h2
        have := ihf (c + 1) (fun k hk => by have := hm k hk; omega) (dn ++ t) y (by
          simpa [blen_append, Nat.add_assoc] using h2)
        obtain ⟨r, hr, hs⟩ := this
        refine ⟨r, ford_rep_more ?_ hne hf (y := y) ?_, ?_⟩
        · intro k hk
          cases hi with
          | none => cases hk
          | some k' => have := hl.le k' rfl; simp at hk; omega
        · rw [show m - c - 1 = m - (c + 1) by omega]
          rw [Option.map_map]
          exact hr
        · cases r with
          | none => exact hs
          | some z =>
            obtain ⟨t', rfl, hs⟩ := hs
            exact ⟨t ++ t', by simp, by simpa [blen_append, Nat.add_assoc] using hs⟩
      · obtain ⟨hf, rfl⟩ := (ih p e hp _ _ _ h1).err
        have hr := ford_rep_stop (m := m - c) hne hf
        have hok := hl.ok_iff c
        by_cases hmc : m ≤ c
        · rw [if_pos (by omega)] at hr
          refine ⟨_, hr, [], rfl, ?_⟩
          have : ok c = true := hok.mpr ⟨hmc, hc⟩
          simp only [finish, this, if_true, Option.some.injEq] at h2
          simpa [blen_append] using h2.symm
        · rw [if_neg (by omega)] at hr
          refine ⟨_, hr, er, ?_⟩
          have : ok c = false := by
            cases hh : ok c with
            | false => rfl
            | true => exact absurd (hok.mp hh).1 hmc
          simp only [finish, this, Bool.false_eq_true, if_false, Option.some.injEq] at h2
          exact h2.symm
    · next hm =>
      have : ∃ k, hi = some k ∧ k = c := by
        cases hi with
        | none => exact absurd ((hl.more_iff c).mpr (by simp)) hm
        | some k =>
          refine ⟨k, rfl, ?_⟩
          have h1 := hc k rfl
          have h2 : ¬ c < k := fun hlt => hm ((hl.more_iff c).mpr (by simpa using hlt))
          omega
      obtain ⟨k, rfl, rfl⟩ := this
      have hmk := hl.le k rfl
      have hr : Ford R (.rep e (m - k) ((some k).map (· - k))) x (some x) := by
        rw [show m - k = 0 by omega]; simp only [Option.map_some, Nat.sub_self]; exact .eps
      refine ⟨_, hr, [], rfl, ?_⟩
      have : ok k = true := (hl.ok_iff k).mpr ⟨hmk, hc⟩
      simp only [finish, this, if_true, Option.some.injEq] at h
      simpa [blen_append] using h.symm

theorem sound_rep {n : Nat} (ih : SoundN G R n) {p : Pat ι β} {e : Peg ι} (hp : AsPeg p e)
    {more ok : Nat → Bool} {m : Nat} {hi : Option Nat} (hl : LoopIs more ok m hi) (er : Error)
    {fuel : Nat} {pre x : List ι} {res : Res Span}
    (h : repLoop (parse G n none (pre ++ x)) p more (finish ok er (blen pre)) fuel 0
      ⟨blen pre, 0⟩ (blen pre) = some res) : SoundAt R (.rep e m hi) pre x res := by
  have := sound_repLoop ih hp hl er fuel 0 (by simp) pre [] x res (by simpa using h)
  obtain ⟨r, hr, hs⟩ := this
  have h0 : hi.map (· - 0) = hi := by cases hi <;> simp
  rw [h0] at hr
  refine ⟨r, hr, ?_⟩
  cases r <;> simpa [Shape] using hs

/-- The first `n` of a `repeat2` loop. -/
theorem sound_rep2 {n : Nat} (ih : SoundN G R n) {p : Pat ι β} {e : Peg ι} (hp : AsPeg p e)
    {m hi : Nat} (hmh : m ≤ hi) (er : Error)
    (fuel c : Nat) (hc : c ≤ hi) (pre dn x : List ι) (res : Res Span)
    (h : repLoop (parse G n none (pre ++ dn ++ x)) p (fun c => decide (c ≤ hi))
      (finish (fun c => decide (m ≤ c) && decide (c ≤ hi)) er (blen pre)) fuel c
      ⟨blen pre, blen dn⟩ (blen (pre ++ dn)) = some res) :
    ∃ r, Ford R (.seq (.rep e (m - c) (some (hi - c))) (.not e)) x r ∧
      match r with
      | some y => ∃ t, x = t ++ y ∧ res = .ok ⟨blen pre, blen (dn ++ t)⟩ (blen pre + blen (dn ++ t))
      | none => ∃ e, res = .err e (blen pre) := by
  induction fuel generalizing c dn x with
  | zero => simp [repLoop] at h
  | succ fuel ihf =>
    simp only [repLoop, hc, decide_true, if_true] at h
    rw [caseR_some] at h
    rcases h with ⟨h1, rfl⟩ | ⟨s, o1, h1, h2⟩ | ⟨e1, o1, h1, h2⟩
    · exact (ih p e hp _ _ _ h1).panic.elim
    · obtain ⟨t, y, rfl, hf, rfl, rfl⟩ := (ih p e hp _ _ _ h1).ok
      rw [blen_append, addK, adj] at h2
      simp only at h2
      by_cases hch : c = hi
      · -- one too many
        subst hch
        have hr : Ford R (.rep e (m - c) (some (c - c))) (t ++ y) (some (t ++ y)) := by
          rw [show m - c = 0 by omega]; simp only [Nat.sub_self]; exact .eps
        refine ⟨none, .seq_ok hr (.not_fail hf), er, ?_⟩
        cases fuel with
        | zero => simp [repLoop] at h2
        | succ fuel =>
          simp only [repLoop, show ¬ c + 1 ≤ c by omega, decide_false, Bool.false_eq_true, if_false,
            finish, Bool.and_false, Option.some.injEq] at h2
          exact h2.symm
      · have := ihf (c + 1) (by omega) (dn ++ t) y (by
          simpa [blen_append, Nat.add_assoc] using h2)
        obtain ⟨r, hr, hs⟩ := this
        have key : ∀ r, Ford R (.rep e (m - (c + 1)) (some (hi - (c + 1)))) y r →
            Ford R (.rep e (m - c) (some (hi - c))) (t ++ y) r := by
          intro r hr
          refine ford_rep_more (by intro k hk; cases hk; omega) (by simp; omega) hf (y := y) ?_
          rw [show m - c - 1 = m - (c + 1) by omega]
          simp only [Option.map_some]
          rw [show hi - c - 1 = hi - (c + 1) by omega]
          exact hr
        refine ⟨r, ?_, ?_⟩
        · cases hr with
          | seq_ok h1 h2 => exact .seq_ok (key _ h1) h2
          | seq_fail h1 => exact .seq_fail (key _ h1)
        · cases r with
          | none => exact hs
          | some z =>
            obtain ⟨t', rfl, hs⟩ := hs
            exact ⟨t ++ t', by simp, by simpa [blen_append, Nat.add_assoc] using hs⟩
    · obtain ⟨hf, rfl⟩ := (ih p e hp _ _ _ h1).err
      have hr : Ford R (.rep e (m - c) (some (hi - c))) x (if m ≤ c then some x else none) := by
        by_cases hch : c = hi
        · subst hch
          rw [if_pos hmh, show m - c = 0 by omega]; simp only [Nat.sub_self]; exact .eps
        · have := ford_rep_stop (m := m - c) (n := some (hi - c)) (by simp; omega) hf
          by_cases hmc : m ≤ c
          · rw [if_pos hmc]; rwa [if_pos (by omega)] at this
          · rw [if_neg hmc]; rwa [if_neg (by omega)] at this
      by_cases hmc : m ≤ c
      · rw [if_pos hmc] at hr
        refine ⟨some x, .seq_ok hr (.not_ok hf), [], rfl, ?_⟩
        simp only [finish, hmc, hc, decide_true, Bool.and_self, if_true, Option.some.injEq] at h2
        simpa [blen_append] using h2.symm
      · rw [if_neg hmc] at hr
        refine ⟨none, .seq_fail hr, er, ?_⟩
        simp only [finish, hmc, decide_false, Bool.false_and, Bool.false_eq_true, if_false,
          Option.some.injEq] at h2
        exact h2.symm

/-! ### Separated lists -/

/-- Another element and separator in front of a list. -/
theorem ford_list_more {e s : Peg ι} {k : Nat} {x y z r} (h1 : Ford R e x (some y))
    (h2 : Ford R s y (some z)) (h3 : Ford R (.list e s (k - 1)) z r) : Ford R (.list e s k) x r := by
  match k with
  | 0 =>
    cases h3 with
    | seq_ok h3 h4 => exact .seq_ok (.star_more (.seq_ok h1 h2) h3) h4
    | seq_fail h3 => exact absurd rfl (ford_star_ok h3)
  | 1 =>
    refine .seq_ok h1 ?_
    cases r with
    | some w => exact .alt_1 (.seq_ok h2 h3)
    | none =>
      cases h3 with
      | seq_ok h3 h4 => cases h4 with | alt_2 _ h4 => cases h4
      | seq_fail h3 => exact absurd rfl (ford_star_ok h3)
  | k + 2 => exact .seq_ok h1 (.seq_ok h2 h3)

/-- The last element. -/
theorem ford_list_last {e s : Peg ι} {k : Nat} {x y} (h1 : Ford R e x (some y))
    (h2 : Ford R s y none) : Ford R (.list e s k) x (if k ≤ 1 then some y else none) := by
  match k with
  | 0 => exact .seq_ok (.star_end (.seq_ok h1 h2)) (.alt_1 h1)
  | 1 => exact .seq_ok h1 (.alt_2 (.seq_fail h2) .eps)
  | k + 2 => rw [if_neg (by omega)]; exact .seq_ok h1 (.seq_fail h2)

/-- No further element. -/
theorem ford_list_stop {e s : Peg ι} {k : Nat} {x} (h1 : Ford R e x none) :
    Ford R (.list e s k) x (if k = 0 then some x else none) := by
  match k with
  | 0 => exact .seq_ok (.star_end (.seq_fail h1)) (.alt_2 h1 .eps)
  | 1 => exact .seq_fail h1
  | k + 2 => exact .seq_fail h1

theorem sound_sepLoop {n : Nat} (ih : SoundN G R n) {p s : Pat ι β} {e es : Peg ι} (hp : AsPeg p e)
    (hs : AsPeg s es) (min : Nat) (er : Error) (fuel c : Nat) (pre dn x : List ι) (res : Res Span)
    (h : sepLoop (parse G n none (pre ++ dn ++ x)) p s true (fun _ => true)
      (finish (fun c => decide (c ≥ min)) er (blen pre)) fuel c
      ⟨blen pre, blen dn⟩ (blen (pre ++ dn)) = some res) :
    ∃ r, Ford R (.list e es (min - c)) x r ∧
      match r with
      | some y => ∃ t, x = t ++ y ∧ res = .ok ⟨blen pre, blen (dn ++ t)⟩ (blen pre + blen (dn ++ t))
      | none => ∃ e, res = .err e (blen pre) := by
  induction fuel generalizing c dn x with
  | zero => simp [sepLoop] at h
  | succ fuel ihf =>
    simp only [sepLoop, if_true] at h
    rw [caseR_some] at h
    rcases h with ⟨h1, rfl⟩ | ⟨sp, o1, h1, h2⟩ | ⟨e1, o1, h1, h2⟩
    · exact (ih p e hp _ _ _ h1).panic.elim
    · obtain ⟨t, y, rfl, hf, rfl, rfl⟩ := (ih p e hp _ _ _ h1).ok
      have hd : pre ++ dn ++ (t ++ y) = pre ++ dn ++ t ++ y := by simp
      have ho : blen (pre ++ dn) + blen t = blen (pre ++ dn ++ t) := (blen_append _ _).symm
      rw [hd, ho] at h2
      rw [caseR_some] at h2
      rcases h2 with ⟨h2, rfl⟩ | ⟨ss, o2, h2, h3⟩ | ⟨e1, o2, h2, h3⟩
      · exact (ih s es hs _ _ _ h2).panic.elim
      · obtain ⟨t2, z, rfl, hf2, rfl, rfl⟩ := (ih s es hs _ _ _ h2).ok
        rw [blen_append pre dn, addK, adj] at h3
        simp only at h3
        rw [show blen (pre ++ dn ++ t) = blen pre + (blen dn + blen t) by simp [blen_append],
          addK, adj] at h3
        simp only at h3
        have := ihf (c + 1) (dn ++ t ++ t2) z (by simpa [blen_append, Nat.add_assoc] using h3)
        obtain ⟨r, hr, hs⟩ := this
        refine ⟨r, ford_list_more hf hf2 (by rwa [show min - c - 1 = min - (c + 1) by omega]), ?_⟩
        cases r with
        | none => exact hs
        | some w =>
          obtain ⟨t', rfl, hs⟩ := hs
          exact ⟨t ++ t2 ++ t', by simp, by simpa [blen_append, Nat.add_assoc] using hs⟩
      · obtain ⟨hf2, rfl⟩ := (ih s es hs _ _ _ h2).err
        rw [blen_append pre dn, addK, adj] at h3
        simp only at h3
        refine ⟨_, ford_list_last hf hf2, ?_⟩
        by_cases hmc : min ≤ c + 1
        · rw [if_pos (by omega)]
          refine ⟨t, rfl, ?_⟩
          simp only [finish, ge_iff_le, hmc, decide_true, if_true, Option.some.injEq] at h3
          simpa [blen_append, Nat.add_assoc] using h3.symm
        · rw [if_neg (by omega)]
          refine ⟨er, ?_⟩
          simp only [finish, ge_iff_le, hmc, decide_false, Bool.false_eq_true, if_false,
            Option.some.injEq] at h3
          exact h3.symm
    · obtain ⟨hf, rfl⟩ := (ih p e hp _ _ _ h1).err
      refine ⟨_, ford_list_stop hf, ?_⟩
      by_cases hmc : min ≤ c
      · rw [if_pos (by omega)]
        refine ⟨[], rfl, ?_⟩
        simp only [finish, ge_iff_le, hmc, decide_true, if_true, Option.some.injEq] at h2
        simpa [blen_append] using h2.symm
      · rw [if_neg (by omega)]
        refine ⟨er, ?_⟩
        simp only [finish, ge_iff_le, hmc, decide_false, Bool.false_eq_true, if_false,
          Option.some.injEq] at h2
        exact h2.symm

theorem sound_sep {n : Nat} (ih : SoundN G R n) {p s : Pat ι β} {e es : Peg ι} (hp : AsPeg p e)
    (hs : AsPeg s es) {min : Nat} {er : Error} {fuel : Nat} {pre x : List ι} {res : Res Span}
    (h : sepLoop (parse G n none (pre ++ x)) p s true (fun _ => true)
      (finish (fun c => decide (c ≥ min)) er (blen pre)) fuel 0
      ⟨blen pre, 0⟩ (blen pre) = some res) : SoundAt R (.list e es min) pre x res := by
  have := sound_sepLoop ih hp hs min er fuel 0 pre [] x res (by simpa using h)
  obtain ⟨r, hr, hs⟩ := this
  refine ⟨r, hr, ?_⟩
  cases r <;> simpa [Shape] using hs

/-! ### Sequences -/

theorem sound_seq2 {n : Nat} (ih : SoundN G R n) {a b : Pat ι β} {ea eb : Peg ι} (ha : AsPeg a ea)
    (hb : AsPeg b eb) {pre x : List ι} {res : Res Span}
    (h : seq2 (parse G n none (pre ++ x)) a b (blen pre) = some res) :
    SoundAt R (.seq ea eb) pre x res := by
  rw [seq2, caseR_some] at h
  rcases h with ⟨h1, rfl⟩ | ⟨s, o1, h1, h2⟩ | ⟨e1, o1, h1, h2⟩
  · exact (ih a ea ha _ _ _ h1).panic.elim
  · obtain ⟨t, y, rfl, hf, rfl, rfl⟩ := (ih a ea ha _ _ _ h1).ok
    rw [← List.append_assoc, ← blen_append, caseR_some] at h2
    rcases h2 with ⟨h2, rfl⟩ | ⟨s2, o2, h2, h3⟩ | ⟨e1, o2, h2, h3⟩
    · exact (ih b eb hb _ _ _ h2).panic.elim
    · obtain ⟨t2, z, rfl, hf2, rfl, rfl⟩ := (ih b eb hb _ _ _ h2).ok
      rw [blen_append, addK, adj] at h3
      cases h3
      exact ⟨some z, .seq_ok hf hf2, t ++ t2, by simp, by simp [blen_append, Nat.add_assoc]⟩
    · cases h3
      exact ⟨none, .seq_ok hf (ih b eb hb _ _ _ h2).err.1, _, rfl⟩
  · cases h2
    exact ⟨none, .seq_fail (ih a ea ha _ _ _ h1).err.1, _, rfl⟩

theorem sound_three {n : Nat} (ih : SoundN G R n) {b c : Pat ι β} {eb ec : Peg ι}
    (hb : AsPeg b eb) (hc : AsPeg c ec) {pre t y : List ι} {res : Res Span}
    (h : caseR (parse G n none (pre ++ (t ++ y)) b (blen pre + blen t))
        (fun s2 o2 => addK ⟨blen pre, blen t⟩ s2 fun s12 => caseR (parse G n none (pre ++ (t ++ y)) c o2)
          (fun s3 o3 => addK s12 s3 fun s => some (.ok s o3))
          (fun e _ => some (.err e (blen pre))))
        (fun e _ => some (.err e (blen pre))) = some res) :
    (∃ z t', y = t' ++ z ∧ Ford R (.seq eb ec) y (some z) ∧
      res = .ok ⟨blen pre, blen (t ++ t')⟩ (blen pre + blen (t ++ t'))) ∨
    (Ford R (.seq eb ec) y none ∧ ∃ e, res = .err e (blen pre)) := by
  rw [← List.append_assoc, ← blen_append, caseR_some] at h
  rcases h with ⟨h2, rfl⟩ | ⟨s2, o2, h2, h3⟩ | ⟨e1, o2, h2, h3⟩
  · exact (ih b eb hb _ _ _ h2).panic.elim
  · obtain ⟨t2, z, rfl, hf2, rfl, rfl⟩ := (ih b eb hb _ _ _ h2).ok
    rw [show (⟨blen (pre ++ t), blen t2⟩ : Span) = ⟨blen pre + blen t, blen t2⟩ by rw [blen_append],
      addK, adj] at h3
    simp only at h3
    rw [← List.append_assoc (pre ++ t), ← blen_append, caseR_some] at h3
    rcases h3 with ⟨h3, rfl⟩ | ⟨s3, o3, h3, h4⟩ | ⟨e1, o3, h3, h4⟩
    · exact (ih c ec hc _ _ _ h3).panic.elim
    · obtain ⟨t3, w, rfl, hf3, rfl, rfl⟩ := (ih c ec hc _ _ _ h3).ok
      rw [show (⟨blen (pre ++ t ++ t2), blen t3⟩ : Span) = ⟨blen pre + (blen t + blen t2), blen t3⟩ by
        simp [blen_append, Nat.add_assoc], addK, adj] at h4
      cases h4
      exact .inl ⟨w, t2 ++ t3, by simp, .seq_ok hf2 hf3, by simp [blen_append, Nat.add_assoc]⟩
    · cases h4
      exact .inr ⟨.seq_ok hf2 (ih c ec hc _ _ _ h3).err.1, _, rfl⟩
  · cases h3
    exact .inr ⟨.seq_fail (ih b eb hb _ _ _ h2).err.1, _, rfl⟩

theorem soundN (hG : RulesAsPeg G R) (n : Nat) : SoundN G R n := by
  induction n with
  | zero => intro p e _ pre x res h; simp [parse] at h
  | succ n ih =>
    intro p e hp pre x res h
    have hstep : step G n (parse G n none) (parse G n none (pre ++ x)) (pre ++ x) p (blen pre) = some res := h
    cases hp with
    | empty => exact pegLeaf_empty.sound h
    | fail => exact pegLeaf_fail.sound h
    | anchorEnd => exact pegLeaf_anchorEnd.sound h
    | consumeAll => exact pegLeaf_consumeAll.sound h
    | lit l => exact (pegLeaf_lit l).sound h
    | once u => exact (pegLeaf_once u).sound h
    | many0 u => exact (pegLeaf_many0 u).sound h
    | many1 u => exact (pegLeaf_many1 u).sound h
    | optU u => exact (pegLeaf_optU u).sound h
    | between u m n hu hmn => exact (pegLeaf_between u m n hu hmn).sound h
    | times u r m n hu hc => exact (pegLeaf_times u r m n hu hc).sound h
    | thenU u v hu hv => exact (pegLeaf_thenU u v hu hv).sound h
    | onceIf u hq => exact sound_onceU guard_nil (ih.test hq u) hstep
    | many0If u hq => exact sound_many0U guard_nil (ih.test hq u) hstep
    | many1If u hq => exact sound_many1U guard_nil (ih.test hq u) hstep
    | optUIf u hq => exact sound_optUU guard_nil (ih.test hq u) hstep
    | betweenIf u m n hu hmn hh hq => exact sound_betweenU hu hmn hh (ih.test hq u) hstep
    | timesIf u r m n hu hc hh hq => exact sound_timesU hu hc hh (ih.test hq u) hstep
    | thenUIf u v hu hv hh hq => exact sound_thenUU hu hv hh (ih.test hq u) (ih.test hq v) hstep
    | choice_nil er => exact (pegLeaf_choice_nil er).sound h
    | cell i =>
      rcases hG i with ⟨q, hq, ha⟩ | ⟨hq, ha⟩
      · simp only [step, hq] at hstep
        obtain ⟨r, hf, hs⟩ := ih q _ ha _ _ _ hstep
        exact ⟨r, .nt hf, hs⟩
      · simp only [step, hq, Option.some.injEq] at hstep
        exact ⟨none, .nt (by rw [ha]; exact ford_fail x), _, hstep.symm⟩
    | map f hq => exact ih _ _ hq _ _ _ hstep
    | pat hq => exact ih _ _ hq _ _ _ hstep
    | thn ha hb => exact sound_seq2 ih ha hb hstep
    | pre ha hb => exact sound_seq2 ih ha hb hstep
    | suf ha hb => exact sound_seq2 ih ha hb hstep
    | @enclose a b c ea eb ec ha hb hc =>
      simp only [step] at hstep
      rw [caseR_some] at hstep
      rcases hstep with ⟨h1, rfl⟩ | ⟨s, o1, h1, h2⟩ | ⟨e1, o1, h1, h2⟩
      · exact (ih a ea ha _ _ _ h1).panic.elim
      · obtain ⟨t, y, rfl, hf, rfl, rfl⟩ := (ih a ea ha _ _ _ h1).ok
        rcases sound_three ih hb hc h2 with ⟨z, t', rfl, hf2, rfl⟩ | ⟨hf2, er, rfl⟩
        · exact ⟨some z, .seq_ok hf hf2, t ++ t', by simp, rfl⟩
        · exact ⟨none, .seq_ok hf hf2, er, rfl⟩
      · cases h2; exact ⟨none, .seq_fail (ih a ea ha _ _ _ h1).err.1, _, rfl⟩
    | @sepOnce a b c ea eb ec ha hb hc =>
      simp only [step] at hstep
      rw [caseR_some] at hstep
      rcases hstep with ⟨h1, rfl⟩ | ⟨s, o1, h1, h2⟩ | ⟨e1, o1, h1, h2⟩
      · exact (ih a ea ha _ _ _ h1).panic.elim
      · obtain ⟨t, y, rfl, hf, rfl, rfl⟩ := (ih a ea ha _ _ _ h1).ok
        have h0 : (⟨blen pre, 0⟩ : Span).addAssign ⟨blen pre, blen t⟩ = some ⟨blen pre, blen t⟩ := by
          have := adj (blen pre) 0 (blen t); simpa using this
        rw [addK, h0] at h2
        rcases sound_three ih hb hc h2 with ⟨z, t', rfl, hf2, rfl⟩ | ⟨hf2, er, rfl⟩
        · exact ⟨some z, .seq_ok hf hf2, t ++ t', by simp, rfl⟩
        · exact ⟨none, .seq_ok hf hf2, er, rfl⟩
      · cases h2; exact ⟨none, .seq_fail (ih a ea ha _ _ _ h1).err.1, _, rfl⟩
    | @ifThen a c b ea et eb ha hc hb =>
      simp only [step] at hstep
      rw [caseR_some] at hstep
      rcases hstep with ⟨h1, rfl⟩ | ⟨s, o1, h1, h2⟩ | ⟨e1, o1, h1, h2⟩
      · exact (ih a ea ha _ _ _ h1).panic.elim
      · obtain ⟨t, y, rfl, hf, rfl, rfl⟩ := (ih a ea ha _ _ _ h1).ok
        have h2' := h2
        rw [← List.append_assoc, ← blen_append, caseR_some] at h2
        rcases h2 with ⟨h2, rfl⟩ | ⟨s2, o2, h2, h3⟩ | ⟨e1, o2, h2, h3⟩
        · exact (ih c et hc _ _ _ h2).panic.elim
        · obtain ⟨t2, z, rfl, hf2, rfl, rfl⟩ := (ih c et hc _ _ _ h2).ok
          have h2n : parse G n none (pre ++ (t ++ (t2 ++ z))) c (blen pre + blen t) =
              some (.ok ⟨blen (pre ++ t), blen t2⟩ (blen (pre ++ t) + blen t2)) := by
            rw [← List.append_assoc, ← blen_append]; exact h2
          have h4 : caseR (parse G n none (pre ++ (t ++ (t2 ++ z))) c (blen pre + blen t))
              (fun s2 o2 => addK ⟨blen pre, blen t⟩ s2 fun s12 =>
                caseR (parse G n none (pre ++ (t ++ (t2 ++ z))) b o2)
                (fun s3 o3 => addK s12 s3 fun s => some (.ok s o3))
                (fun e _ => some (.err e (blen pre))))
              (fun e _ => some (.err e (blen pre))) = some res := by
            rw [h2n] at h2' ⊢; exact h2'
          rcases sound_three ih hc hb h4 with ⟨w, t', hw, hf3, rfl⟩ | ⟨hf3, er, rfl⟩
          · exact ⟨some w, .seq_ok hf (.alt_1 hf3), t ++ t', by rw [hw]; simp, rfl⟩
          · exact ⟨none, .seq_ok hf (.alt_2 hf3 (.not_fail hf2)), er, rfl⟩
        · cases h3
          have hf2 := (ih c et hc _ _ _ h2).err.1
          exact ⟨some y, .seq_ok hf (.alt_2 (.seq_fail hf2) (.not_ok hf2)), t, rfl, by rw [blen_append]⟩
      · cases h2; exact ⟨none, .seq_fail (ih a ea ha _ _ _ h1).err.1, _, rfl⟩
    | @or a b ea eb ha hb =>
      simp only [step] at hstep
      rw [caseR_some] at hstep
      rcases hstep with ⟨h1, rfl⟩ | ⟨s, o1, h1, h2⟩ | ⟨e1, o1, h1, h2⟩
      · exact (ih a ea ha _ _ _ h1).panic.elim
      · cases h2
        obtain ⟨r, hf, hs⟩ := ih a ea ha _ _ _ h1
        obtain ⟨t, y, rfl, rfl, rfl, rfl⟩ := hs.ok
        exact ⟨some y, .alt_1 hf, hs⟩
      · have hfa := (ih a ea ha _ _ _ h1).err.1
        rw [caseR_some] at h2
        rcases h2 with ⟨h2, rfl⟩ | ⟨s2, o2, h2, h3⟩ | ⟨e1, o2, h2, h3⟩
        · exact (ih b eb hb _ _ _ h2).panic.elim
        · cases h3
          obtain ⟨r, hf, hs⟩ := ih b eb hb _ _ _ h2
          exact ⟨r, .alt_2 hfa hf, hs⟩
        · cases h3
          exact ⟨none, .alt_2 hfa (ih b eb hb _ _ _ h2).err.1, _, rfl⟩
    | @opt q e hq =>
      simp only [step] at hstep
      rw [caseR_some] at hstep
      rcases hstep with ⟨h1, rfl⟩ | ⟨s, o1, h1, h2⟩ | ⟨e1, o1, h1, h2⟩
      · exact (ih q e hq _ _ _ h1).panic.elim
      · cases h2
        obtain ⟨r, hf, hs⟩ := ih q e hq _ _ _ h1
        obtain ⟨t, y, rfl, rfl, rfl, rfl⟩ := hs.ok
        exact ⟨some y, .alt_1 hf, hs⟩
      · cases h2
        exact ⟨some x, .alt_2 (ih q e hq _ _ _ h1).err.1 .eps, [], rfl, rfl⟩
    | @isnt q e hq =>
      simp only [step] at hstep
      rw [caseR_some] at hstep
      rcases hstep with ⟨h1, rfl⟩ | ⟨s, o1, h1, h2⟩ | ⟨e1, o1, h1, h2⟩
      · exact (ih q e hq _ _ _ h1).panic.elim
      · obtain ⟨t, y, rfl, hf, -, -⟩ := (ih q e hq _ _ _ h1).ok
        cases h2
        exact ⟨none, .not_fail hf, _, rfl⟩
      · cases h2
        exact ⟨some x, .not_ok (ih q e hq _ _ _ h1).err.1, [], rfl, rfl⟩
    | @is q e hq =>
      simp only [step] at hstep
      rw [caseR_some] at hstep
      rcases hstep with ⟨h1, rfl⟩ | ⟨s, o1, h1, h2⟩ | ⟨e1, o1, h1, h2⟩
      · exact (ih q e hq _ _ _ h1).panic.elim
      · obtain ⟨t, y, rfl, hf, -, -⟩ := (ih q e hq _ _ _ h1).ok
        cases h2
        exact ⟨_, .not_ok (.not_fail hf), [], rfl, rfl⟩
      · cases h2
        exact ⟨none, .not_fail (.not_ok (ih q e hq _ _ _ h1).err.1), _, rfl⟩
    | @choice_cons er q e v items es hq hi =>
      have hh : choiceLoop (parse G n none (pre ++ x)) er (blen pre) ((q, v) :: items) (blen pre) = some res := hstep
      simp only [choiceLoop] at hh
      rw [caseR_some] at hh
      rcases hh with ⟨h1, rfl⟩ | ⟨s, o1, h1, h2⟩ | ⟨e1, o1, h1, h2⟩
      · exact (ih q e hq _ _ _ h1).panic.elim
      · cases h2
        obtain ⟨r, hf, hs⟩ := ih q e hq _ _ _ h1
        obtain ⟨t, y, rfl, rfl, rfl, rfl⟩ := hs.ok
        exact ⟨some y, .alt_1 hf, hs⟩
      · have hfa := (ih q e hq _ _ _ h1).err.1
        -- the remaining alternatives, at the same fuel
        have key : ∀ items es, AsPeg (.choice er items) es →
            choiceLoop (parse G n none (pre ++ x)) er (blen pre) items (blen pre) = some res →
            SoundAt R es pre x res := by
          intro items
          induction items with
          | nil =>
            intro es hes hl
            cases hes
            cases hl
            exact ⟨none, ford_fail x, er, rfl⟩
          | cons it items ihl =>
            intro es hes hl
            cases hes with
            | @choice_cons _ q' e' v' _ es' hq' hi' =>
              simp only [choiceLoop] at hl
              rw [caseR_some] at hl
              rcases hl with ⟨h1, rfl⟩ | ⟨s, o1, h1, h2⟩ | ⟨e1, o1, h1, h2⟩
              · exact (ih q' e' hq' _ _ _ h1).panic.elim
              · cases h2
                obtain ⟨r, hf, hs⟩ := ih q' e' hq' _ _ _ h1
                obtain ⟨t, y, rfl, rfl, rfl, rfl⟩ := hs.ok
                exact ⟨some y, .alt_1 hf, hs⟩
              · obtain ⟨r, hf, hs⟩ := ihl es' hi' h2
                exact ⟨r, .alt_2 (ih q' e' hq' _ _ _ h1).err.1 hf, hs⟩
        obtain ⟨r, hf, hs⟩ := key items es hi h2
        exact ⟨r, .alt_2 hfa hf, hs⟩
    | rep r m hi hq hc => exact sound_rep ih hq (counts_loop hc) .repeat_ hstep
    | collect m hq => exact sound_rep ih hq (collect_loop m) .collect hstep
    | @rep2 q e m hi hq hmh =>
      have := sound_rep2 ih hq hmh .repeat2 n 0 (by omega) pre [] x res (by
        simp only [step] at hstep; simpa using hstep)
      obtain ⟨r, hr, hs⟩ := this
      refine ⟨r, hr, ?_⟩
      cases r <;> simpa [Shape] using hs
    | sep min hq hs => exact sound_sep ih hq hs hstep
    | sepCollect min hq hs => exact sound_sep ih hq hs hstep

end Neure
