import Verif.PropsSweep
/-!
# C103: counted runs and runs that may be empty

`find_all` with `times(m..=n)` cuts every run of accepted items into pieces of `n`, and keeps a last piece that has at least `m`;
`find_all` with `many0` finds what `many1` finds, because empty matches are passed over.
-/

namespace Neure

set_option linter.unusedSectionVars false
set_option linter.unusedSimpArgs false

open Demo

variable {ι β : Type} [Item ι] {G : Rules ι β} {d : List ι} {p : Pat ι β} {α : Type}

namespace Sweep

/-! ## Specification -/

/-- How many of `k` accepted items a piece takes: at most `n`, and none if that is fewer than `m`. -/
def fits (m n k : Nat) : Nat := if m ≤ min n k then min n k else 0

/-- The pieces of `m` to `n` items for which `f` holds, from left to right, each as long as possible. -/
def pieces (m n : Nat) (f : ι → Bool) (o : Nat) (t : List ι) : List (Nat × List ι) :=
  sweep (fun rest => fits m n (rest.takeWhile f).length) 0 o t

/-! ## Lemmas -/

theorem inside_more {o : Nat} (hlt : o < blen d) (hv : ¬ Valid d o) :
    (∀ m n u c, NoHit G none d (.between m n u c) o) ∧ ∀ u c, NoHit G none d (.many0 u c) o := by
  have hd : dropB d o = none := by
    cases h : dropB d o with
    | none => rfl
    | some l => exact absurd (valid_iff_dropB.mpr ⟨l, h⟩) hv
  have hle : ¬ blen d < o := by omega
  have ha : origAt d o = .err .outOfBound := by simp [origAt, hle, hd]
  have hp : peek d o = .err .outOfBound := by simp [peek, ha]
  refine ⟨fun m n u c => .inl ⟨.outOfBound, o, runs_iff.mpr ?_⟩, fun u c => .inr ⟨⟨o, 0⟩, o, runs_iff.mpr ?_, rfl⟩⟩
  · rw [matL_none, parseL_between]; simp only [betweenParse, hp, caseO]
  · rw [matL_none, parseL_many0]; simp only [many0Parse, remK, hp, caseO, if_pos (by omega : o ≤ blen d)]

theorem between_at (m n : Nat) (u : Neu ι) (hf : u.Fair) (pre t : List ι) :
    (fits m n (t.takeWhile u.isMatch).length = 0 → NoHit G none (pre ++ t) (.between m n u .empty) (blen pre)) ∧
    (fits m n (t.takeWhile u.isMatch).length ≠ 0 → Runs G none (pre ++ t) (.between m n u .empty) (blen pre)
      (.ok ⟨blen pre, blen (t.take (fits m n (t.takeWhile u.isMatch).length))⟩
        (blen pre + blen (t.take (fits m n (t.takeWhile u.isMatch).length))))) := by
  have hm := C24_between_takeWhile (β := β) (G := G) (pol := none) m n u hf pre t rfl
  rw [List.length_take] at hm
  have e : t.take (min n (t.takeWhile u.isMatch).length) = (t.takeWhile u.isMatch).take n := by
    rw [List.prefix_iff_eq_take.mp ((List.take_prefix n _).trans (List.takeWhile_prefix u.isMatch (l := t))), List.length_take]
  unfold fits
  by_cases h : m ≤ min n (t.takeWhile u.isMatch).length
  · simp only [if_pos h] at hm ⊢
    rw [e]
    have hr := (hm _).mpr rfl
    refine ⟨fun h0 => .inr ⟨_, _, hr, ?_⟩, fun _ => hr⟩
    rw [← e, h0]; rfl
  · simp only [if_neg h] at hm ⊢
    exact ⟨fun _ => .inl ⟨.between, _, (hm _).mpr rfl⟩, fun h => absurd rfl h⟩

theorem many0_at (u : Neu ι) (pre t : List ι) :
    ((t.takeWhile u.isMatch).length = 0 → NoHit G none (pre ++ t) (.many0 u .empty) (blen pre)) ∧
    ((t.takeWhile u.isMatch).length ≠ 0 → Runs G none (pre ++ t) (.many0 u .empty) (blen pre)
      (.ok ⟨blen pre, blen (t.take (t.takeWhile u.isMatch).length)⟩
        (blen pre + blen (t.take (t.takeWhile u.isMatch).length)))) := by
  have hm := (C23_many0_takeWhile (β := β) (G := G) (pol := none) u pre t rfl _).mpr rfl
  constructor
  · intro h
    refine .inr ⟨_, _, hm, ?_⟩
    rw [List.eq_nil_of_length_eq_zero h]; rfl
  · intro h
    have e : t.take (t.takeWhile u.isMatch).length = t.takeWhile u.isMatch :=
      (List.prefix_iff_eq_take.mp (List.takeWhile_prefix _)).symm
    rw [e]
    exact hm

end Sweep

open Sweep

/-! ## The property -/

/-- **C103 (counted runs).** `find_all` with `m` to `n` items gives the pieces of that length, each as long as possible. -/
theorem C103_find_all_between (m n : Nat) (u : Neu ι) (hf : u.Fair) (pre t : List ι) :
    (∀ r, FindsAll G none (pre ++ t) (.between m n u .empty) .slice (blen pre) r ↔
      r = .ok ((pieces m n u.isMatch (blen pre) t).map (·.2)) (blen (pre ++ t))) ∧
    (∀ r, FindsAll G none (pre ++ t) (.between m n u .empty) .span (blen pre) r ↔
      r = .ok ((pieces m n u.isMatch (blen pre) t).map fun m => ⟨m.1, blen m.2⟩) (blen (pre ++ t))) := by
  refine both (p := .between m n u .empty) (All.intro trivial fun q h => ?_) (All.intro trivial fun q h => ?_)
    (All.intro trivial fun q h => ?_) (fun t => ?_)
    (fun pre t => between_at m n u hf pre t) (fun d o h h' => (inside_more h h').1 m n u .empty) pre t
  iterate 3 simp [Child, Cond.Has] at h
  have : (t.takeWhile u.isMatch).length ≤ t.length := (List.takeWhile_prefix _).length_le
  simp only [fits]
  split <;> omega

/-- **C103 (runs that may be empty).** `find_all` with any number of items gives the longest runs, as with one or more. -/
theorem C103_find_all_many0 (u : Neu ι) (pre t : List ι) :
    (∀ r, FindsAll G none (pre ++ t) (.many0 u .empty) .slice (blen pre) r ↔
      r = .ok ((stretches u.isMatch (blen pre) t).map (·.2)) (blen (pre ++ t))) ∧
    (∀ r, FindsAll G none (pre ++ t) (.many0 u .empty) .span (blen pre) r ↔
      r = .ok ((stretches u.isMatch (blen pre) t).map fun m => ⟨m.1, blen m.2⟩) (blen (pre ++ t))) := by
  refine both (p := .many0 u .empty) (All.intro trivial fun q h => ?_) (All.intro trivial fun q h => ?_)
    (All.intro trivial fun q h => ?_) (fun t => (List.takeWhile_prefix _).length_le)
    (fun pre t => many0_at u pre t) (fun d o h h' => (inside_more h h').2 u .empty) pre t
  iterate 3 simp [Child, Cond.Has] at h

/-- **C103 (length of the pieces).** Every piece has `m` to `n` items, at least one, all accepted. -/
theorem C103_pieces (m n : Nat) (f : ι → Bool) (o : Nat) (t : List ι) :
    ∀ x ∈ pieces m n f o t, m ≤ x.2.length ∧ x.2.length ≤ n ∧ x.2 ≠ [] ∧ ∀ c ∈ x.2, f c = true := by
  have : ∀ (t : List ι) k o, ∀ x ∈ sweep (fun rest => fits m n (rest.takeWhile f).length) k o t,
      m ≤ x.2.length ∧ x.2.length ≤ n ∧ x.2 ≠ [] ∧ ∀ c ∈ x.2, f c = true := by
    intro t
    induction t with
    | nil => intro k o x hx; simp [sweep] at hx
    | cons y t ih =>
      intro k o x hx
      cases k with
      | succ k => exact ih _ _ x hx
      | zero =>
        simp only [sweep] at hx
        split at hx
        · exact ih _ _ x hx
        · next k hk =>
          rcases List.mem_cons.mp hx with rfl | hx
          · have hl : ((y :: t).takeWhile f).length ≤ (y :: t).length := (List.takeWhile_prefix _).length_le
            rw [Nat.succ_eq_add_one] at hk
            unfold fits at hk
            split at hk
            · next hm =>
              have hlen : ((y :: t).take (k + 1)).length = k + 1 := by rw [List.length_take]; omega
              refine ⟨by simp only [hlen]; omega, by simp only [hlen]; omega, by simp, ?_⟩
              intro c hc
              have e : (y :: t).take (k + 1) = ((y :: t).takeWhile f).take (k + 1) := by
                rw [List.prefix_iff_eq_take.mp (List.takeWhile_prefix f (l := y :: t)), List.take_take]
                congr 1
                omega
              simp only [e] at hc
              exact List.all_eq_true.mp List.all_takeWhile c (List.mem_of_mem_take hc)
            · cases hk
          · exact ih _ _ x hx
  exact this t 0 o

/-- A run of five cut into pieces of two: the fifth is too short; with one or two it is kept. -/
example : (pieces 2 2 (· == 'a') 0 ['a', 'a', 'a', 'a', 'a', 'b', 'a']).map (·.2) = [['a', 'a'], ['a', 'a']] ∧
    (pieces 1 2 (· == 'a') 0 ['a', 'a', 'a', 'a', 'a', 'b', 'a']).map (·.1) = [0, 2, 4, 6] := by decide

example : FindsAll (β := Nat) G0 none ['a', 'a', 'a', 'b'] (.between 2 2 (.equal 'a') .empty) .span 0 (.ok [⟨0, 2⟩] 4) :=
  ((C103_find_all_between (G := G0) 2 2 (.equal 'a') (C24_fair _ (.inl trivial)) [] ['a', 'a', 'a', 'b']).2 _).mpr (by decide)

end Neure
