import Verif.PropsFindTrace
import Verif.PropsWork

/-!
# C91: the bound on the calls of a search is of the right order

A search may make quadratically many calls: nothing learnt at one position is used at the
next.
-/

set_option linter.unusedSectionVars false
set_option linter.unusedSimpArgs false

namespace Neure

namespace Quad

/-- `rule = 'a' rule | 'b'`: any number of `a` and a `b`. -/
def rule : Pat Char Nat := .or (.thn (.lit ['a']) (.cell 0)) (.lit ['b'])

/-- Cell 0 holds `rule`. -/
def GQ : Rules Char Nat := fun i => if i = 0 then some rule else none

/-- `aaa…`. -/
def text (n : Nat) : List Char := List.replicate n 'a'

theorem blen_text (n : Nat) : blen (text n) = n := Work.blen_rep n 'a' rfl

theorem orig_text (j k : Nat) : origAt (text (j + k)) j = .ok (List.replicate k 'a') := by
  rw [origAt_ok, text, ← List.replicate_append_replicate]
  have := dropB_append (List.replicate j 'a') (List.replicate k 'a')
  rwa [Work.blen_rep j 'a' rfl] at this

theorem work_succ (n : Nat) (d : List Char) (p : Pat Char Nat) (k o : Nat) :
    workParse (σ := Unit) GQ (n + 1) none d p ((), k) o =
      impStep GQ n (fun d => workParse GQ n none d) (workParse GQ n none d) d p ((), k + 1) o := rfl

theorem lit_hit {d : List Char} {o n : Nat} {c : Char} {rest : List Char} (h : origAt d o = .ok (c :: rest))
    (hc : Item.size c = 1) (k : Nat) :
    workParse (σ := Unit) GQ (n + 1) none d (.lit [c]) ((), k) o = some (.done (.ok ⟨o, 1⟩) ((), k + 1) (o + 1)) := by
  have hl := origAt_len h
  rw [blen_cons, hc] at hl
  have h1 : o ≤ blen d := by omega
  have h2 : blen d - o ≥ 1 := by omega
  rw [work_succ]
  refine (congrFun (congrFun (imp_lit (σ := Unit × Nat) GQ n (fun _ _ _ => none) (fun _ _ => none) d [c]) ((), k + 1)) o).trans ?_
  simp [liftR, step, litParse, remK, h1, h2, h, hc, List.isPrefixOf, newSpanInc, caseR, caseO]

theorem lit_miss {d : List Char} {o n : Nat} {c : Char} {rest : List Char} (h : origAt d o = .ok rest)
    (hc : rest.head? ≠ some c) (k : Nat) :
    workParse (σ := Unit) GQ (n + 1) none d (.lit [c]) ((), k) o = some (.done (.error .literal) ((), k + 1) o) := by
  have hl := origAt_len h
  have h1 : o ≤ blen d := by omega
  have hp : [c].isPrefixOf rest = false := by
    cases rest with
    | nil => rfl
    | cons x rest => simp at hc; simp [List.isPrefixOf, Ne.symm hc]
  rw [work_succ]
  refine (congrFun (congrFun (imp_lit (σ := Unit × Nat) GQ n (fun _ _ _ => none) (fun _ _ => none) d [c]) ((), k + 1)) o).trans ?_
  have hs : litParse d [c] o = some (.err .literal o) := by
    simp only [litParse, remK, h1, if_true, h, hp, caseO, Bool.false_eq_true, if_false]
    split <;> rfl
  simp only [liftR, step, hs]

theorem thn_miss {d : List Char} {n k k1 o : Nat} {a b : Pat Char Nat} {e : Error}
    (h1 : workParse (σ := Unit) GQ n none d a ((), k + 1) o = some (.done (.error e) ((), k1) o)) :
    workParse (σ := Unit) GQ (n + 1) none d (.thn a b) ((), k) o = some (.done (.error e) ((), k1) o) := by
  rw [work_succ]
  simp only [impStep, Imp.thn]
  try run
  simp only [h1, isOk_error]
  try run

theorem thn_miss2 {d : List Char} {n k k1 k2 o o1 : Nat} {a b : Pat Char Nat} {s : Span} {e : Error}
    (h1 : workParse (σ := Unit) GQ n none d a ((), k + 1) o = some (.done (.ok s) ((), k1) o1))
    (h2 : workParse (σ := Unit) GQ n none d b ((), k1) o1 = some (.done (.error e) ((), k2) o1)) :
    workParse (σ := Unit) GQ (n + 1) none d (.thn a b) ((), k) o = some (.done (.error e) ((), k2) o) := by
  rw [work_succ]
  simp only [impStep, Imp.thn]
  try run
  simp only [h1, isOk_ok, if_true]
  try run
  simp only [h2, isOk_error]
  try run

theorem or_miss {d : List Char} {n k k1 k2 o : Nat} {a b : Pat Char Nat} {e e' : Error}
    (h1 : workParse (σ := Unit) GQ n none d a ((), k + 1) o = some (.done (.error e) ((), k1) o))
    (h2 : workParse (σ := Unit) GQ n none d b ((), k1) o = some (.done (.error e') ((), k2) o)) :
    workParse (σ := Unit) GQ (n + 1) none d (.or a b) ((), k) o = some (.done (.error e') ((), k2) o) := by
  rw [work_succ]
  simp only [impStep, Imp.or]
  try run
  simp only [h1]
  try run
  simp only [h2]
  try run

/-- The count, exactly: from position `j`, `k` in front of the end. -/
theorem run_text (j k m : Nat) :
    workParse (σ := Unit) GQ (3 * k + 4) none (text (j + k)) (.cell 0) ((), m) j =
      some (.done (.error .literal) ((), m + 5 * (k + 1)) j) := by
  rw [work_succ]
  show workParse (σ := Unit) GQ (3 * k + 3) none (text (j + k)) rule ((), m + 1) j = _
  induction k generalizing j m with
  | zero =>
    have h := orig_text j 0
    exact or_miss (thn_miss (lit_miss h (by simp) _)) (lit_miss h (by simp) _)
  | succ k ih =>
    have h := orig_text j (k + 1)
    rw [List.replicate_succ] at h
    have hi : ∀ i, workParse (σ := Unit) GQ (3 * k + 4) none (text (j + (k + 1))) (.cell 0) ((), i) (j + 1) =
        some (.done (.error .literal) ((), i + 5 * (k + 1)) (j + 1)) := fun i => by
      rw [work_succ]
      have := ih (j + 1) i
      rw [show j + 1 + k = j + (k + 1) by omega] at this
      exact this
    have := or_miss (n := 3 * k + 5) (k := m + 1) (thn_miss2 (lit_hit h rfl _) (hi _)) (lit_miss (c := 'b') h (by simp) _)
    refine this.trans ?_
    congr 2
    congr 1
    omega

theorem misses (n : Nat) {j : Nat} (hj : j ≤ n) :
    RunsWork GQ none (text n) (.cell 0) j (.error .literal) j (5 * (n - j + 1)) := by
  have := run_text j (n - j) 0
  rw [show j + (n - j) = n by omega, Nat.zero_add] at this
  exact ⟨3 * (n - j) + 4, this⟩

theorem misses_all (n m : Nat) (hm : m ≤ n) :
    ∃ N, ∀ j, j < m → tryMat GQ N none (text n) (.cell 0) j = some (.err .literal j) := by
  induction m with
  | zero => exact ⟨0, fun j hj => by omega⟩
  | succ m ih =>
    obtain ⟨N, hN⟩ := ih (by omega)
    obtain ⟨M, hM⟩ := ((C78_counting (.cell 0) m).2 .literal m).mpr ⟨_, misses n (by omega)⟩
    refine ⟨max N M, fun j hj => ?_⟩
    rcases Nat.lt_or_eq_of_le (Nat.le_of_lt_succ hj) with hj | rfl
    · exact tryMat_mono _ _ _ _ _ _ _ (Nat.le_max_left ..) _ (hN j hj)
    · exact tryMat_mono _ _ _ _ _ _ _ (Nat.le_max_right ..) _ hM

theorem loop_misses {α : Type} {mt : Nat → Option (Res Span)} {n : Nat} {h : Span → Out α}
    (hm : ∀ j, j < n → mt j = some (.err .literal j)) (k j : Nat) (hk : j + k = n) (fuel : Nat) (hf : k < fuel) :
    findLoopT mt n findProc h fuel j = some (.ok none n, List.range' j k) := by
  induction k generalizing j fuel with
  | zero =>
    cases fuel with
    | zero => omega
    | succ fuel =>
      have : j = n := by omega
      simp [findLoopT, this]
  | succ k ih =>
    cases fuel with
    | zero => omega
    | succ fuel =>
      have hj : j < n := by omega
      simp only [findLoopT, hj, if_true, hm j hj, findBodyT, findProc]
      rw [ih (j + 1) (by omega) fuel (by omega)]
      simp [List.range'_succ]

/-- The sum of the counts from position `j` on. -/
theorem total (n k j : Nat) (hk : j + k = n) :
    ∃ t, TotalCalls GQ none (text n) (.cell 0) (List.range' j k) t ∧ 2 * t = 5 * k * (k + 3) := by
  induction k generalizing j with
  | zero => exact ⟨0, .nil, by simp⟩
  | succ k ih =>
    obtain ⟨t, h1, h2⟩ := ih (j + 1) (by omega)
    refine ⟨_, .cons (misses n (by omega)) h1, ?_⟩
    rw [show n - j = k + 1 by omega, Nat.mul_add, h2]
    simp only [Nat.mul_add, Nat.add_mul, Nat.mul_one, Nat.one_mul]
    have := Nat.mul_comm k 5
    generalize 5 * k * k = x
    omega

end Quad

/-- **C91 (the order of the bound).** Searching `aaa…` (`n` bytes) for any number of `a` and a
`b` finds nothing, tries every position and makes exactly `5 n (n + 3) / 2` calls. -/
theorem C91_quadratic (n : Nat) :
    FindsAllTrying Quad.GQ none (Quad.text n) (.cell 0) .span 0 (.ok [] n) (List.range n) ∧
    (∃ t, TotalCalls Quad.GQ none (Quad.text n) (.cell 0) (List.range n) t ∧ 2 * t = 5 * n * (n + 3)) ∧
    blen (Quad.text n) = n := by
  rw [List.range_eq_range']
  refine ⟨?_, Quad.total n n 0 (by omega), Quad.blen_text n⟩
  obtain ⟨N, hN⟩ := Quad.misses_all n n (Nat.le_refl _)
  refine ⟨max N (n + 1), ?_⟩
  have hm : ∀ j, j < n → tryMat Quad.GQ (max N (n + 1)) none (Quad.text n) (.cell 0) j = some (.err .literal j) :=
    fun j hj => tryMat_mono _ _ _ _ _ _ _ (Nat.le_max_left ..) _ (hN j hj)
  have hf := Nat.le_max_right N (n + 1)
  generalize max N (n + 1) = F at *
  obtain ⟨F, rfl⟩ : ∃ F', F = F' + 1 := ⟨F - 1, by omega⟩
  rw [Quad.blen_text]
  simp only [drainT]
  rw [Quad.loop_misses hm n 0 (by omega) (F + 1) (by omega)]

/-- The same pattern does find: `aab` in `aab`. -/
example : FindsAllTrying Quad.GQ none "aab".toList (.cell 0) .span 0 (.ok [⟨0, 3⟩] 3) [0] := ⟨20, by decide⟩

end Neure
