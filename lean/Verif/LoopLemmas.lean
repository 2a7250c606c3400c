import Verif.CoreInv
import Verif.Eqs
/-!
# Loops: from the evaluator's loops to `Applied` / `AppliedSep`
-/

namespace Neure

set_option linter.unusedSectionVars false

variable {ι β : Type} [Item ι] {G : Rules ι β} {pol : Option (Pat ι β)} {d : List ι}

theorem hull_iff {s1 s2 s : Span} : Hull s1 s2 s ↔ s1.addAssign s2 = some s := by
  rw [addAssign_eq]; simp only [Hull, Span.stop]

theorem hull_none {s1 s2 : Span} : s1.addAssign s2 = none ↔ ∀ s, ¬ Hull s1 s2 s := by
  cases h : s1.addAssign s2 with
  | none => simp [hull_iff, h]
  | some u => simp only [reduceCtorEq, false_iff, Classical.not_forall, Classical.not_not]
              exact ⟨u, hull_iff.mpr h⟩

theorem Hull.unique {s1 s2 s s' : Span} (h : Hull s1 s2 s) (h' : Hull s1 s2 s') : s = s' := by
  rw [hull_iff] at h h'; rw [h] at h'; exact Option.some.inj h'

/-- How a repetition loop at `(cnt, t, o)` can return `r`. -/
theorem repL_iff (p : Pat ι β) (more : Nat → Bool) (fin : Nat → Span → Nat → Option (Res Span))
    (cnt : Nat) (t : Span) (o : Nat) (r : Res Span) :
    repL (matL G pol d) p more fin cnt t o = some r ↔
      ∃ k t' o1, Applied G pol d p k t o t' o1 ∧ (∀ j, j < k → more (cnt + j) = true) ∧
        ((more (cnt + k) = false ∧ fin (cnt + k) t' o1 = some r) ∨
         (more (cnt + k) = true ∧
          ((∃ e o2, Runs G pol d p o1 (.err e o2) ∧ fin (cnt + k) t' o2 = some r) ∨
           (r = .panic ∧ (Runs G pol d p o1 .panic ∨
              ∃ s o2, Runs G pol d p o1 (.ok s o2) ∧ ∀ u, ¬ Hull t' s u))))) := by
  simp only [runs_iff]
  constructor
  · intro h
    obtain ⟨n, hn⟩ := (lim_eq_some (approx_repLoop_const (matL G pol d) p more fin cnt t o).1 _).mp h
    clear h
    induction n generalizing cnt t o with
    | zero => simp [repLoop] at hn
    | succ n ih =>
      simp only [repLoop] at hn
      split at hn
      · next hm =>
        rw [caseR_some] at hn
        rcases hn with ⟨h1, rfl⟩ | ⟨s, o1, h1, h2⟩ | ⟨e, o1, h1, h2⟩
        · exact ⟨0, t, o, .zero _ _, by simp, .inr ⟨hm, .inr ⟨rfl, .inl h1⟩⟩⟩
        · rw [addK_some] at h2
          rcases h2 with ⟨h2, rfl⟩ | ⟨t1, h2, h3⟩
          · exact ⟨0, t, o, .zero _ _, by simp, .inr ⟨hm, .inr ⟨rfl, .inr ⟨s, o1, h1, hull_none.mp h2⟩⟩⟩⟩
          · obtain ⟨k, t', o2, ha, hj, hk⟩ := ih _ _ _ h3
            refine ⟨k + 1, t', o2, .succ (runs_iff.mpr h1) (hull_iff.mpr h2) ha, ?_, ?_⟩
            · intro j hj'
              cases j with
              | zero => exact hm
              | succ j => rw [show cnt + (j + 1) = cnt + 1 + j by omega]; exact hj j (by omega)
            · rw [show cnt + (k + 1) = cnt + 1 + k by omega]; exact hk
        · exact ⟨0, t, o, .zero _ _, by simp, .inr ⟨hm, .inl ⟨e, o1, h1, h2⟩⟩⟩
      · next hm => exact ⟨0, t, o, .zero _ _, by simp, .inl ⟨by simpa using hm, hn⟩⟩
  · rintro ⟨k, t', o1, ha, hj, hk⟩
    induction ha generalizing cnt with
    | zero t o =>
      rw [repL_eq]
      rcases hk with ⟨hm, h⟩ | ⟨hm, h⟩
      · simp only [Nat.add_zero] at hm h; rw [hm]; simpa using h
      · simp only [Nat.add_zero] at hm h
        rw [if_pos hm]
        rcases h with ⟨e, o2, h1, h2⟩ | ⟨rfl, h1 | ⟨s, o2, h1, h2⟩⟩
        · rw [h1]; exact h2
        · rw [h1]; rfl
        · rw [h1]; simp only [caseR, addK]; rw [hull_none.mpr h2]
    | succ hr hh ha ih =>
      rename_i k t s t1 t' o o1 o'
      have hm := hj 0 (by omega)
      rw [repL_eq, if_pos (by simpa using hm), runs_iff.mp hr]
      simp only [caseR, addK]
      rw [hull_iff.mp hh]
      refine ih (cnt + 1) (fun j hj' => ?_) ?_
      · rw [show cnt + 1 + j = cnt + (j + 1) by omega]; exact hj _ (by omega)
      · rw [show cnt + 1 + k = cnt + (k + 1) by omega]; exact hk

/-- How a separator loop at `(cnt, t, o)` can return `r`. -/
theorem sepL_iff (p s : Pat ι β) (skip : Bool) (more : Nat → Bool)
    (fin : Nat → Span → Nat → Option (Res Span)) (cnt : Nat) (t : Span) (o : Nat) (r : Res Span) :
    sepL (matL G pol d) p s skip more fin cnt t o = some r ↔
      ∃ k t' o1, AppliedSep G pol d p s k t o t' o1 ∧ (∀ j, j < k → more (cnt + j) = true) ∧
        ((more (cnt + k) = false ∧ fin (cnt + k) t' o1 = some r) ∨
         (more (cnt + k) = true ∧
          ((∃ e o2, Runs G pol d p o1 (.err e o2) ∧ fin (cnt + k) t' o2 = some r) ∨
           (∃ sp o2 e o3, Runs G pol d p o1 (.ok sp o2) ∧ Runs G pol d s o2 (.err e o3) ∧
             ((skip = true ∧ ((∃ u, Hull t' sp u ∧ fin (cnt + k + 1) u o3 = some r) ∨
                ((∀ u, ¬ Hull t' sp u) ∧ r = .panic))) ∨
              (skip = false ∧ fin (cnt + k) t' o3 = some r))) ∨
           (r = .panic ∧ (Runs G pol d p o1 .panic ∨
              ∃ sp o2, Runs G pol d p o1 (.ok sp o2) ∧ (Runs G pol d s o2 .panic ∨
                ∃ ss o3, Runs G pol d s o2 (.ok ss o3) ∧
                  ∀ u v, Hull t' sp u → ¬ Hull u ss v)))))) := by
  simp only [runs_iff]
  constructor
  · intro h
    obtain ⟨n, hn⟩ :=
      (lim_eq_some (approx_sepLoop_const (matL G pol d) p s skip more fin cnt t o).1 _).mp h
    clear h
    induction n generalizing cnt t o with
    | zero => simp [sepLoop] at hn
    | succ n ih =>
      simp only [sepLoop] at hn
      split at hn
      · next hm =>
        rw [caseR_some] at hn
        rcases hn with ⟨h1, rfl⟩ | ⟨sp, o1, h1, h2⟩ | ⟨e, o1, h1, h2⟩
        · exact ⟨0, t, o, .zero _ _, by simp, .inr ⟨hm, .inr (.inr ⟨rfl, .inl h1⟩)⟩⟩
        · rw [caseR_some] at h2
          rcases h2 with ⟨h2, rfl⟩ | ⟨ss, o2, h2, h3⟩ | ⟨e, o2, h2, h3⟩
          · exact ⟨0, t, o, .zero _ _, by simp,
              .inr ⟨hm, .inr (.inr ⟨rfl, .inr ⟨sp, o1, h1, .inl h2⟩⟩)⟩⟩
          · rw [addK_some] at h3
            rcases h3 with ⟨h3, rfl⟩ | ⟨t1, h3, h4⟩
            · refine ⟨0, t, o, .zero _ _, by simp,
                .inr ⟨hm, .inr (.inr ⟨rfl, .inr ⟨sp, o1, h1, .inr ⟨ss, o2, h2, ?_⟩⟩⟩)⟩⟩
              intro u v hu; exact absurd hu (hull_none.mp h3 u)
            · rw [addK_some] at h4
              rcases h4 with ⟨h4, rfl⟩ | ⟨t2, h4, h5⟩
              · refine ⟨0, t, o, .zero _ _, by simp,
                  .inr ⟨hm, .inr (.inr ⟨rfl, .inr ⟨sp, o1, h1, .inr ⟨ss, o2, h2, ?_⟩⟩⟩)⟩⟩
                intro u v hu
                rw [hu.unique (hull_iff.mpr h3)]; exact hull_none.mp h4 v
              · obtain ⟨k, t', o3, ha, hj, hk⟩ := ih _ _ _ h5
                refine ⟨k + 1, t', o3, .succ (runs_iff.mpr h1) (runs_iff.mpr h2) (hull_iff.mpr h3)
                  (hull_iff.mpr h4) ha, ?_, ?_⟩
                · intro j hj'
                  cases j with
                  | zero => exact hm
                  | succ j => rw [show cnt + (j + 1) = cnt + 1 + j by omega]; exact hj j (by omega)
                · rw [show cnt + (k + 1) = cnt + 1 + k by omega]; exact hk
          · refine ⟨0, t, o, .zero _ _, by simp,
              .inr ⟨hm, .inr (.inl ⟨sp, o1, e, o2, h1, h2, ?_⟩)⟩⟩
            split at h3
            · next hs =>
              refine .inl ⟨hs, ?_⟩
              rw [addK_some] at h3
              rcases h3 with ⟨h3, rfl⟩ | ⟨t1, h3, h4⟩
              · exact .inr ⟨hull_none.mp h3, rfl⟩
              · exact .inl ⟨t1, hull_iff.mpr h3, h4⟩
            · next hs => exact .inr ⟨by simpa using hs, h3⟩
        · exact ⟨0, t, o, .zero _ _, by simp, .inr ⟨hm, .inl ⟨e, o1, h1, h2⟩⟩⟩
      · next hm => exact ⟨0, t, o, .zero _ _, by simp, .inl ⟨by simpa using hm, hn⟩⟩
  · rintro ⟨k, t', o1, ha, hj, hk⟩
    induction ha generalizing cnt with
    | zero t o =>
      rw [sepL_eq]
      rcases hk with ⟨hm, h⟩ | ⟨hm, h⟩
      · simp only [Nat.add_zero] at hm h; rw [hm]; simpa using h
      · simp only [Nat.add_zero] at hm h
        rw [if_pos hm]
        rcases h with ⟨e, o2, h1, h2⟩ | ⟨sp, o2, e, o3, h1, h2, h3⟩ | ⟨rfl, h1 | ⟨sp, o2, h1, h2⟩⟩
        · rw [h1]; exact h2
        · rw [h1]; simp only [caseR]; rw [h2]; simp only
          rcases h3 with ⟨rfl, ⟨u, hu, h3⟩ | ⟨hu, rfl⟩⟩ | ⟨rfl, h3⟩
          · simp only [if_true, addK]; rw [hull_iff.mp hu]; exact h3
          · simp only [if_true, addK]; rw [hull_none.mpr hu]
          · exact h3
        · rw [h1]; rfl
        · rw [h1]; simp only [caseR]
          rcases h2 with h2 | ⟨ss, o3, h2, h3⟩
          · rw [h2]
          · rw [h2]
            simp only [addK]
            cases hu : t.addAssign sp with
            | none => rfl
            | some u =>
              simp only
              cases hv : u.addAssign ss with
              | none => rfl
              | some v => exact absurd (hull_iff.mpr hv) (h3 u v (hull_iff.mpr hu))
    | succ hr hr' hh hh' ha ih =>
      rename_i k t sp t1 ss t2 t' o o1 o2 o'
      have hm := hj 0 (by omega)
      rw [sepL_eq, if_pos (by simpa using hm), runs_iff.mp hr]
      simp only [caseR]
      rw [runs_iff.mp hr']
      simp only [addK]
      rw [hull_iff.mp hh]
      simp only
      rw [hull_iff.mp hh']
      refine ih (cnt + 1) (fun j hj' => ?_) ?_
      · rw [show cnt + 1 + j = cnt + (j + 1) by omega]; exact hj _ (by omega)
      · rw [show cnt + 1 + k = cnt + (k + 1) by omega]; exact hk

theorem finish_ok {ok : Nat → Bool} {e : Error} {beg cnt : Nat} {t s : Span} {o o' : Nat} :
    finish ok e beg cnt t o = some (.ok s o') ↔ ok cnt = true ∧ s = t ∧ o' = o := by
  unfold finish; split
  · next h => simp [h, eq_comm]
  · next h => simp [h]

theorem finish_err' {ok : Nat → Bool} {e e' : Error} {beg cnt : Nat} {t : Span} {o o' : Nat} :
    finish ok e beg cnt t o = some (.err e' o') ↔ ok cnt = false ∧ e' = e ∧ o' = beg := by
  unfold finish; split
  · next h => simp [h]
  · next h => simp [h, eq_comm]

theorem finish_panic {ok : Nat → Bool} {e : Error} {beg cnt : Nat} {t : Span} {o : Nat} :
    finish ok e beg cnt t o ≠ some .panic := by
  unfold finish; split <;> simp

theorem more_iff {r : CRange} {k : Nat} : r.more k = true ↔ r.hi.allowsUpTo (k + 1) := by
  unfold CRange.more Bound.allowsUpTo
  cases r.hi <;> simp <;> omega

theorem contains_iff {r : CRange} {k : Nat} :
    r.contains k = true ↔ r.lo.allowsFrom k ∧ r.hi.allowsUpTo k := by
  unfold CRange.contains Bound.allowsUpTo Bound.allowsFrom
  cases r.lo <;> cases r.hi <;> simp

theorem Bound.allowsUpTo_mono {b : Bound} {j k : Nat} (h : j ≤ k) (hk : b.allowsUpTo k) :
    b.allowsUpTo j := by
  unfold Bound.allowsUpTo at *
  cases b <;> simp at * <;> omega

theorem Applied.unique {p : Pat ι β} {k : Nat} {t o t1 o1 t2 o2}
    (h : Applied G pol d p k t o t1 o1) (h' : Applied G pol d p k t o t2 o2) : t1 = t2 ∧ o1 = o2 := by
  induction h with
  | zero t o => cases h'; exact ⟨rfl, rfl⟩
  | succ hr hh _ ih =>
    cases h' with
    | succ hr' hh' ha' =>
      cases hr.unique hr'
      cases hh.unique hh'
      exact ih ha'

end Neure
