import Verif.CtorDen
import Verif.CtorSpec
import Verif.LoopLemmas
/-!
# Loops of `construct`: from the evaluator to `Built` / `BuiltSep`
-/

namespace Neure

set_option linter.unusedSectionVars false

variable {ι β σ : Type} [Item ι] {G : Rules ι β} {H : Handler ι β σ} {pol : Option (Pat ι β)}
  {d : List ι}

/-- How a repetition loop can return `r`. -/
theorem conRepL_iff (p : Pat ι β) (more room : Nat → Bool)
    (fin : Nat → List (Val β) → σ → Nat → Option (CRes σ (Val β)))
    (cnt : Nat) (vals : List (Val β)) (st : σ) (o : Nat) (r : CRes σ (Val β)) :
    conRepL (conL G H pol d) p more room fin cnt vals st o = some r ↔
      ∃ vs st1 o1, Built G H pol d p vs st o st1 o1 ∧
        (∀ j, j < vs.length → more (cnt + j) = true ∧ room (cnt + j) = true) ∧
        ((more (cnt + vs.length) = false ∧ fin (cnt + vs.length) (vals ++ vs) st1 o1 = some r) ∨
         (more (cnt + vs.length) = true ∧
          ((∃ e st2 o2, Constructs G H pol d p st1 o1 (.err e st2 o2) ∧
              fin (cnt + vs.length) (vals ++ vs) st2 o2 = some r) ∨
           (r = .panic ∧ (Constructs G H pol d p st1 o1 .panic ∨
              (room (cnt + vs.length) = false ∧
                ∃ v st2 o2, Constructs G H pol d p st1 o1 (.ok v st2 o2))))))) := by
  simp only [constructs_iff]
  constructor
  · intro h
    have hmono : Mono fun k => conRep (conL G H pol d) p more room fin k cnt vals st o :=
      (approx_conRep (cn := fun _ => conL G H pol d) (cn' := conL G H pol d)
        (fun _ _ _ => approx_const _) p more room fin cnt vals st o).1
    obtain ⟨n, hn⟩ := (lim_eq_some hmono _).mp h
    clear h hmono
    induction n generalizing cnt vals st o with
    | zero => simp [conRep] at hn
    | succ n ih =>
      simp only [conRep] at hn
      split at hn
      · next hm =>
        rw [caseC_some] at hn
        rcases hn with ⟨h1, rfl⟩ | ⟨v, st1, o1, h1, h2⟩ | ⟨e, st1, o1, h1, h2⟩
        · exact ⟨[], st, o, .nil _ _, by simp, .inr ⟨hm, .inr ⟨rfl, .inl h1⟩⟩⟩
        · split at h2
          · next hr =>
            obtain ⟨vs, st', o', ha, hj, hk⟩ := ih _ _ _ _ h2
            refine ⟨v :: vs, st', o', .cons (constructs_iff.mpr h1) ha, ?_, ?_⟩
            · intro j hj'
              cases j with
              | zero => exact ⟨hm, hr⟩
              | succ j =>
                rw [show cnt + (j + 1) = cnt + 1 + j by omega]
                exact hj j (by simpa using hj')
            · simp only [List.length_cons, show cnt + (vs.length + 1) = cnt + 1 + vs.length by omega]
              simpa using hk
          · next hr =>
            cases h2
            exact ⟨[], st, o, .nil _ _, by simp,
              .inr ⟨hm, .inr ⟨rfl, .inr ⟨by simpa using hr, v, st1, o1, h1⟩⟩⟩⟩
        · exact ⟨[], st, o, .nil _ _, by simp, .inr ⟨hm, .inl ⟨e, st1, o1, h1, by simpa using h2⟩⟩⟩
      · next hm => exact ⟨[], st, o, .nil _ _, by simp, .inl ⟨by simpa using hm, by simpa using hn⟩⟩
  · rintro ⟨vs, st1, o1, ha, hj, hk⟩
    induction ha generalizing cnt vals with
    | nil st o =>
      rw [conRepL_eq]
      simp only [List.length_nil, Nat.add_zero, List.append_nil] at hk
      rcases hk with ⟨hm, h⟩ | ⟨hm, h⟩
      · rw [hm]; simpa using h
      · rw [if_pos hm]
        rcases h with ⟨e, st2, o2, h1, h2⟩ | ⟨rfl, h1 | ⟨hr, v, st2, o2, h1⟩⟩
        · rw [h1]; exact h2
        · rw [h1]; rfl
        · rw [h1]; simp [caseC, hr]
    | cons hc ha ih =>
      rename_i v vs st st1 st' o o1 o'
      obtain ⟨hm, hr⟩ := hj 0 (by simp)
      rw [Nat.add_zero] at hm hr
      rw [conRepL_eq, if_pos hm, constructs_iff.mp hc]
      simp only [caseC, if_pos hr]
      refine ih (cnt + 1) (vals ++ [v]) (fun j hj' => ?_) ?_
      · rw [show cnt + 1 + j = cnt + (j + 1) by omega]; exact hj _ (by simpa using hj')
      · simp only [List.length_cons,
          show cnt + (vs.length + 1) = cnt + 1 + vs.length by omega] at hk
        simpa using hk

/-- How a separator loop can return `r`. -/
theorem conSepL_iff (p s : Pat ι β) (skip : Bool) (more room : Nat → Bool)
    (fin : Nat → List (Val β) → σ → Nat → Option (CRes σ (Val β)))
    (cnt : Nat) (vals : List (Val β)) (st : σ) (o : Nat) (r : CRes σ (Val β)) :
    conSepL (conL G H pol d) (matL G pol d s) p skip more room fin cnt vals st o = some r ↔
      ∃ vs st1 o1, BuiltSep G H pol d p s vs st o st1 o1 ∧
        (∀ j, j < vs.length → more (cnt + j) = true ∧ room (cnt + j) = true) ∧
        ((more (cnt + vs.length) = false ∧ fin (cnt + vs.length) (vals ++ vs) st1 o1 = some r) ∨
         (more (cnt + vs.length) = true ∧
          ((∃ e st2 o2, Constructs G H pol d p st1 o1 (.err e st2 o2) ∧
              fin (cnt + vs.length) (vals ++ vs) st2 o2 = some r) ∨
           (∃ v st2 o2 e o3, Constructs G H pol d p st1 o1 (.ok v st2 o2) ∧
              Runs G pol d s o2 (.err e o3) ∧
              ((skip = true ∧ room (cnt + vs.length) = true ∧
                  fin (cnt + vs.length + 1) (vals ++ vs ++ [v]) st2 o3 = some r) ∨
               (skip = true ∧ room (cnt + vs.length) = false ∧ r = .panic) ∨
               (skip = false ∧ fin (cnt + vs.length) (vals ++ vs) st2 o3 = some r))) ∨
           (r = .panic ∧ (Constructs G H pol d p st1 o1 .panic ∨
              ∃ v st2 o2, Constructs G H pol d p st1 o1 (.ok v st2 o2) ∧
                (Runs G pol d s o2 .panic ∨
                  (room (cnt + vs.length) = false ∧ ∃ ss o3, Runs G pol d s o2 (.ok ss o3)))))))) := by
  simp only [constructs_iff, runs_iff]
  constructor
  · intro h
    have hmono : Mono fun k =>
        conSep (conL G H pol d) (matL G pol d s) p skip more room fin k cnt vals st o :=
      (approx_conSep (cn := fun _ => conL G H pol d) (cn' := conL G H pol d)
        (ms := fun _ => matL G pol d s) (ms' := matL G pol d s)
        (fun _ _ _ => approx_const _) (fun _ => approx_const _) p skip more room fin cnt vals st o).1
    obtain ⟨n, hn⟩ := (lim_eq_some hmono _).mp h
    clear h hmono
    induction n generalizing cnt vals st o with
    | zero => simp [conSep] at hn
    | succ n ih =>
      simp only [conSep] at hn
      split at hn
      · next hm =>
        rw [caseC_some] at hn
        rcases hn with ⟨h1, rfl⟩ | ⟨v, st1, o1, h1, h2⟩ | ⟨e, st1, o1, h1, h2⟩
        · exact ⟨[], st, o, .nil _ _, by simp, .inr ⟨hm, .inr (.inr ⟨rfl, .inl h1⟩)⟩⟩
        · rw [caseM_some] at h2
          rcases h2 with ⟨h2, rfl⟩ | ⟨ss, o2, h2, h3⟩ | ⟨e, o2, h2, h3⟩
          · exact ⟨[], st, o, .nil _ _, by simp,
              .inr ⟨hm, .inr (.inr ⟨rfl, .inr ⟨v, st1, o1, h1, .inl h2⟩⟩)⟩⟩
          · split at h3
            · next hr =>
              obtain ⟨vs, st', o', ha, hj, hk⟩ := ih _ _ _ _ h3
              refine ⟨v :: vs, st', o', .cons (constructs_iff.mpr h1) (runs_iff.mpr h2) ha, ?_, ?_⟩
              · intro j hj'
                cases j with
                | zero => exact ⟨hm, hr⟩
                | succ j =>
                  rw [show cnt + (j + 1) = cnt + 1 + j by omega]
                  exact hj j (by simpa using hj')
              · simp only [List.length_cons,
                  show cnt + (vs.length + 1) = cnt + 1 + vs.length by omega]
                simpa using hk
            · next hr =>
              cases h3
              exact ⟨[], st, o, .nil _ _, by simp, .inr ⟨hm, .inr (.inr ⟨rfl, .inr
                ⟨v, st1, o1, h1, .inr ⟨by simpa using hr, ss, o2, h2⟩⟩⟩)⟩⟩
          · refine ⟨[], st, o, .nil _ _, by simp,
              .inr ⟨hm, .inr (.inl ⟨v, st1, o1, e, o2, h1, h2, ?_⟩)⟩⟩
            split at h3
            · next hs =>
              split at h3
              · next hr => exact .inl ⟨hs, hr, by simpa using h3⟩
              · next hr => cases h3; exact .inr (.inl ⟨hs, by simpa using hr, rfl⟩)
            · next hs => exact .inr (.inr ⟨by simpa using hs, by simpa using h3⟩)
        · exact ⟨[], st, o, .nil _ _, by simp, .inr ⟨hm, .inl ⟨e, st1, o1, h1, by simpa using h2⟩⟩⟩
      · next hm => exact ⟨[], st, o, .nil _ _, by simp, .inl ⟨by simpa using hm, by simpa using hn⟩⟩
  · rintro ⟨vs, st1, o1, ha, hj, hk⟩
    induction ha generalizing cnt vals with
    | nil st o =>
      rw [conSepL_eq]
      simp only [List.length_nil, Nat.add_zero, List.append_nil] at hk
      rcases hk with ⟨hm, h⟩ | ⟨hm, h⟩
      · rw [hm]; simpa using h
      · rw [if_pos hm]
        rcases h with ⟨e, st2, o2, h1, h2⟩ | ⟨v, st2, o2, e, o3, h1, h2, h3⟩ |
          ⟨rfl, h1 | ⟨v, st2, o2, h1, h2⟩⟩
        · rw [h1]; exact h2
        · rw [h1]; simp only [caseC]; rw [h2]; simp only [caseM]
          rcases h3 with ⟨rfl, hr, h3⟩ | ⟨rfl, hr, rfl⟩ | ⟨rfl, h3⟩
          · simpa [hr] using h3
          · simp [hr]
          · simpa using h3
        · rw [h1]; rfl
        · rw [h1]; simp only [caseC]
          rcases h2 with h2 | ⟨hr, ss, o3, h2⟩
          · rw [h2]; rfl
          · rw [h2]; simp [caseM, hr]
    | cons hc hs ha ih =>
      rename_i v vs st st1 st' ss o o1 o2 o'
      obtain ⟨hm, hr⟩ := hj 0 (by simp)
      rw [Nat.add_zero] at hm hr
      rw [conSepL_eq, if_pos hm, constructs_iff.mp hc]
      simp only [caseC]
      rw [runs_iff.mp hs]
      simp only [caseM, if_pos hr]
      refine ih (cnt + 1) (vals ++ [v]) (fun j hj' => ?_) ?_
      · rw [show cnt + 1 + j = cnt + (j + 1) by omega]; exact hj _ (by simpa using hj')
      · simp only [List.length_cons,
          show cnt + (vs.length + 1) = cnt + 1 + vs.length by omega] at hk
        simpa using hk

/-- How the `SepCollect` loop (flag `end` not set) can return `r`. -/
theorem conSepCL_iff (p s : Pat ι β) (skip : Bool)
    (fin : Nat → List (Val β) → σ → Nat → Option (CRes σ (Val β)))
    (cnt : Nat) (vals : List (Val β)) (st : σ) (o : Nat) (r : CRes σ (Val β)) :
    conSepCL (conL G H pol d) (matL G pol d s) p skip fin false cnt vals st o = some r ↔
      ∃ vs st1 o1, BuiltSep G H pol d p s vs st o st1 o1 ∧
        ((∃ e st2 o2, Constructs G H pol d p st1 o1 (.err e st2 o2) ∧
            fin (cnt + vs.length) (vals ++ vs) st2 o2 = some r) ∨
         (∃ v st2 o2 e o3, Constructs G H pol d p st1 o1 (.ok v st2 o2) ∧
            Runs G pol d s o2 (.err e o3) ∧
            ((skip = true ∧ conSepCL (conL G H pol d) (matL G pol d s) p skip fin true
                (cnt + vs.length + 1) (vals ++ vs ++ [v]) st2 o3 = some r) ∨
             (skip = false ∧ fin (cnt + vs.length) (vals ++ vs) st2 o3 = some r))) ∨
         (r = .panic ∧ (Constructs G H pol d p st1 o1 .panic ∨
            ∃ v st2 o2, Constructs G H pol d p st1 o1 (.ok v st2 o2) ∧ Runs G pol d s o2 .panic))) := by
  simp only [constructs_iff, runs_iff]
  constructor
  · intro h
    have hmono : ∀ e c vals st o, Mono fun k =>
        conSepCollect (conL G H pol d) (matL G pol d s) p skip fin k e c vals st o := fun e c vals st o =>
      (approx_conSepCollect (cn := fun _ => conL G H pol d) (cn' := conL G H pol d)
        (ms := fun _ => matL G pol d s) (ms' := matL G pol d s)
        (fun _ _ _ => approx_const _) (fun _ => approx_const _) p skip fin e c vals st o).1
    obtain ⟨n, hn⟩ := (lim_eq_some (hmono _ _ _ _ _) _).mp h
    clear h
    induction n generalizing cnt vals st o with
    | zero => simp [conSepCollect] at hn
    | succ n ih =>
      simp only [conSepCollect, Bool.false_eq_true, if_false] at hn
      rw [caseC_some] at hn
      rcases hn with ⟨h1, rfl⟩ | ⟨v, st1, o1, h1, h2⟩ | ⟨e, st1, o1, h1, h2⟩
      · exact ⟨[], st, o, .nil _ _, .inr (.inr ⟨rfl, .inl h1⟩)⟩
      · rw [caseM_some] at h2
        rcases h2 with ⟨h2, rfl⟩ | ⟨ss, o2, h2, h3⟩ | ⟨e, o2, h2, h3⟩
        · exact ⟨[], st, o, .nil _ _, .inr (.inr ⟨rfl, .inr ⟨v, st1, o1, h1, h2⟩⟩)⟩
        · obtain ⟨vs, st', o', ha, hk⟩ := ih _ _ _ _ h3
          refine ⟨v :: vs, st', o', .cons (constructs_iff.mpr h1) (runs_iff.mpr h2) ha, ?_⟩
          simp only [List.length_cons, show cnt + (vs.length + 1) = cnt + 1 + vs.length by omega]
          simpa using hk
        · refine ⟨[], st, o, .nil _ _, .inr (.inl ⟨v, st1, o1, e, o2, h1, h2, ?_⟩)⟩
          split at h3
          · next hs =>
            exact .inl ⟨hs, (lim_eq_some (hmono _ _ _ _ _) _).mpr ⟨n, by simpa using h3⟩⟩
          · next hs => exact .inr ⟨by simpa using hs, by simpa using h3⟩
      · exact ⟨[], st, o, .nil _ _, .inl ⟨e, st1, o1, h1, by simpa using h2⟩⟩
  · rintro ⟨vs, st1, o1, ha, hk⟩
    induction ha generalizing cnt vals with
    | nil st o =>
      rw [conSepCL_eq]
      simp only [List.length_nil, Nat.add_zero, List.append_nil] at hk
      rcases hk with ⟨e, st2, o2, h1, h2⟩ | ⟨v, st2, o2, e, o3, h1, h2, h3⟩ |
          ⟨rfl, h1 | ⟨v, st2, o2, h1, h2⟩⟩
      · rw [h1]; exact h2
      · rw [h1]; simp only [caseC]; rw [h2]; simp only [caseM, Bool.false_eq_true, if_false]
        rcases h3 with ⟨rfl, h3⟩ | ⟨rfl, h3⟩
        · simpa using h3
        · simpa using h3
      · rw [h1]; rfl
      · rw [h1]; simp only [caseC]; rw [h2]; rfl
    | cons hc hs ha ih =>
      rename_i v vs st st1 st' ss o o1 o2 o'
      rw [conSepCL_eq, constructs_iff.mp hc]
      simp only [caseC]
      rw [runs_iff.mp hs]
      simp only [caseM, Bool.false_eq_true, if_false]
      refine ih (cnt + 1) (vals ++ [v]) ?_
      simp only [List.length_cons,
        show cnt + (vs.length + 1) = cnt + 1 + vs.length by omega] at hk
      simpa using hk

theorem conFinish_ok {ok : Nat → Bool} {e : Error} {beg cnt : Nat} {w : List (Val β) → Val β}
    {vals : List (Val β)} {st st' : σ} {o o' : Nat} {v : Val β} :
    conFinish ok e beg w cnt vals st o = some (.ok v st' o') ↔
      ok cnt = true ∧ v = w vals ∧ st' = st ∧ o' = o := by
  unfold conFinish; split
  · next h => simp [h, eq_comm]
  · next h => simp [h]

theorem conFinish_err {ok : Nat → Bool} {e e' : Error} {beg cnt : Nat} {w : List (Val β) → Val β}
    {vals : List (Val β)} {st st' : σ} {o o' : Nat} :
    conFinish ok e beg w cnt vals st o = some (.err e' st' o') ↔
      ok cnt = false ∧ e' = e ∧ st' = st ∧ o' = beg := by
  unfold conFinish; split
  · next h => simp [h]
  · next h => simp [h, eq_comm]

theorem conFinish_panic {ok : Nat → Bool} {e : Error} {beg cnt : Nat} {w : List (Val β) → Val β}
    {vals : List (Val β)} {st : σ} {o : Nat} :
    conFinish ok e beg w cnt vals st o ≠ some .panic := by
  unfold conFinish; split <;> simp

end Neure
