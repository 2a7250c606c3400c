import Verif.LockLemmas
import Verif.Demo
/-!
# C67: sharing patterns between threads; C34 for any number of handles
-/

namespace Neure

set_option linter.unusedSectionVars false
set_option linter.unusedSimpArgs false

open Demo

variable {ι β σ : Type} [Item ι] {G : Rules ι β} {H : Handler ι β σ} {pol : Option (Pat ι β)}
  {d : List ι} {rank : Nat → Nat}

/-! ## The result does not depend on the locks -/

/-- **C67 (same result).** A thread that matches with mutex handles gets exactly the
result it would get with plain handles, whatever it does to the mutexes on the way. -/
theorem C67_same_result_match (p : Pat ι β) (o : Nat) (r : Res Span) (hr : r ≠ .panic) :
    (∃ w, MatchLog G pol d p o r w) ↔ Runs G pol d p o r := by
  constructor
  · rintro ⟨w, n, a, o', h, rfl⟩
    exact ⟨n, liftR_done.mp (((lrel_anyMat (σ := Unit) n pol d p).done () () o o' a).mpr ⟨w, h, trivial, trivial⟩)⟩
  · rintro ⟨n, h⟩
    obtain ⟨a, o', rfl⟩ := resOf_cases r hr
    obtain ⟨w, hw, _⟩ := ((lrel_anyMat (σ := Unit) n pol d p).done () () o o' a).mp (liftR_done.mpr h)
    exact ⟨w, n, a, o', hw, rfl⟩

/-- **C67 (same result, constructing).** -/
theorem C67_same_result_construct (p : Pat ι β) (st : σ) (o : Nat) (r : CRes σ (Val β))
    (hr : r ≠ .panic) :
    (∃ w, CtorLog G H pol d p st o r w) ↔ Constructs G H pol d p st o r := by
  constructor
  · rintro ⟨w, n, a, st', o', h, rfl⟩
    exact ⟨n, liftC_done.mp (((lrel_anyCon n pol d p).done st st' o o' a).mpr ⟨w, h, trivial, trivial⟩)⟩
  · rintro ⟨n, h⟩
    obtain ⟨a, st', o', rfl⟩ := cresOf_cases r hr
    obtain ⟨w, hw, _⟩ := ((lrel_anyCon n pol d p).done st st' o o' a).mp (liftC_done.mpr h)
    exact ⟨w, n, a, st', o', hw, rfl⟩

/-! ## Locking in order never deadlocks -/

/-- The logs of a thread are blocks, the blocks inside a block being of lower rank. -/
theorem nested_of_threadLog (hG : LockOrder rank G) {w : List Ev} (h : ThreadLog rank G w) :
    Nested rank (fun _ => True) w := by
  induction h with
  | idle => exact .nil _
  | @mat pol d p o r u v hu hp _ ih =>
    obtain ⟨n, a, o', h, _⟩ := hu
    have := (lrel_lockMat (σ := Unit) hG n pol d p (fun _ => True) (fun _ _ => trivial)
      (fun _ _ _ _ => trivial) hp).out () [] o
    rw [h] at this
    obtain ⟨w', hw, hn, _⟩ := this
    obtain rfl : u = w' := hw
    exact hn.append ih
  | @ctor σ H pol d p st o r u v hu hp _ ih =>
    obtain ⟨n, a, st', o', h, _⟩ := hu
    have := (lrel_lockCon (H := H) hG n pol d p (fun _ => True) (fun _ _ => trivial)
      (fun _ _ _ _ => trivial) hp).out st [] o
    rw [h] at this
    obtain ⟨w', hw, hn, _⟩ := this
    obtain rfl : u = w' := hw
    exact hn.append ih

/-- **C67 (no deadlock).** Any number `k` of threads share handles whose contents use
only handles of lower rank.  Each thread makes any calls of `try_mat` and
`ctor_handler` on any inputs.  Whatever order the scheduler picks: as long as some
thread is not done, some thread can go on; no more operations happen than the
threads do by themselves; and when that many have happened, all threads are done. -/
theorem C67_no_deadlock (hG : LockOrder rank G) (k : Nat) (w : Nat → List Ev)
    (hw : ∀ t, t < k → ThreadLog rank G (w t)) (hk : ∀ t, k ≤ t → w t = [])
    (n : Nat) (s : Sys) (hs : Sys.Run n (Sys.start w) s) :
    n ≤ totalWork w k ∧ (n < totalWork w k → ∃ s', s.Step s') ∧
      (n = totalWork w k → ∀ t, s.todo t = []) := by
  have hn : ∀ t, Nested rank (fun _ => True) (w t) := by
    intro t
    by_cases h : t < k
    · exact nested_of_threadLog hG (hw t h)
    · rw [hk t (by omega)]; exact .nil _
  obtain ⟨h, hi⟩ := inv_run hn hs
  obtain ⟨h1, h2⟩ := run_work hk hs
  refine ⟨by omega, fun hlt => ?_, fun he t => ?_⟩
  · have hne : totalWork s.todo k ≠ 0 := by omega
    have : ∃ t, s.todo t ≠ [] := Classical.byContradiction fun hc => hne (totalWork_zero.mpr fun t _ =>
      Classical.byContradiction fun ht => hc ⟨t, ht⟩)
    obtain ⟨t, ht⟩ := this
    exact inv_progress hi ht
  · by_cases h : t < k
    · exact totalWork_zero.mp (by omega) t h
    · exact h2 t (by omega)

/-- **C67 (mutual exclusion and order).** In every state that can be reached, a handle
has at most one owner, and a thread only waits for a handle of lower rank than all
handles it holds. -/
theorem C67_wait_for_lower (hG : LockOrder rank G) (w : Nat → List Ev)
    (hw : ∀ t, ThreadLog rank G (w t)) (n : Nat) (s : Sys) (hs : Sys.Run n (Sys.start w) s)
    (t i : Nat) (v : List Ev) (ht : s.todo t = .acq i :: v) (j : Nat) (hj : s.owner j = some t) :
    rank i < rank j := by
  obtain ⟨h, hr, ho⟩ := inv_run (fun t => nested_of_threadLog hG (hw t)) hs
  exact (Rest.acq (rank := rank) (h := h t) (ht ▸ hr t)).2 j ((ho j t).mp hj)

deriving instance DecidableEq for Except
deriving instance DecidableEq for MRes

/-- Three handles: numbers, lists of numbers, and white space to be skipped. -/
def GL : Rules Char Nat := fun i =>
  if i = 0 then some (.many1 (.pred Char.isDigit) .empty)
  else if i = 1 then some (.enclose (.lit ['(']) (.sep (.cell 0) (.lit [',']) true 1) (.lit [')']))
  else if i = 2 then some spaces
  else none

/-- White space below numbers below lists. -/
def rankL : Nat → Nat := fun i => if i = 2 then 0 else i + 1

/-- The order is kept. -/
theorem lockOrder_GL : LockOrder rankL GL := by
  intro i q hq
  suffices h : All (fun _ => none) (fun q => ∀ k, q = Pat.cell k → rankL k < rankL i) q from
    fun k hk => h _ hk k rfl
  have leaf : ∀ p : Pat Char Nat, (∀ k, p ≠ .cell k) → (∀ c, ¬ Child (fun _ => none) c p) →
      All (fun _ => none) (fun q => ∀ k, q = Pat.cell k → rankL k < rankL i) p := fun p h1 h2 =>
    .intro (fun k e => absurd e (h1 k)) fun c hc => absurd hc (h2 c)
  by_cases h0 : i = 0
  · subst h0
    cases hq
    exact leaf _ (by simp) (by simp [Child, Cond.Has])
  by_cases h1 : i = 1
  · subst h1
    cases hq
    refine .intro (by simp) fun c hc => ?_
    simp only [Child] at hc
    rcases hc with rfl | rfl | rfl
    · exact leaf _ (by simp) (by simp [Child])
    · refine .intro (by simp) fun c hc => ?_
      simp only [Child] at hc
      rcases hc with rfl | rfl
      · refine .intro (fun k e => ?_) (by simp [Child])
        cases e
        decide
      · exact leaf _ (by simp) (by simp [Child])
    · exact leaf _ (by simp) (by simp [Child])
  by_cases h2 : i = 2
  · subst h2
    cases hq
    exact leaf _ (by simp [spaces]) (by simp [spaces, Child, Cond.Has])
  · simp [GL, h0, h1, h2] at hq

/-- The white space handle is below what the list handle reaches. -/
theorem policyBelow_GL : PolicyBelow rankL GL (some (.cell 2)) (.cell 1) := by
  intro s hs j hj i hi
  cases hs
  have hj' : j = 2 := by
    have : All (fun _ => none) (fun q => q = Pat.cell 2) (.cell 2 : Pat Char Nat) :=
      .intro rfl fun c hc => by simp [Child] at hc
    have := this _ hj
    simpa using this
  subst hj'
  have key : All GL (fun q => ∀ k, q = Pat.cell k → k = 0 ∨ k = 1) (.cell 1) := by
    refine .intro (by simp) fun c hc => ?_
    simp only [Child, GL] at hc
    cases hc
    refine .intro (by simp) fun c hc => ?_
    simp only [Child] at hc
    rcases hc with rfl | rfl | rfl
    · exact .intro (by simp) (by simp [Child])
    · refine .intro (by simp) fun c hc => ?_
      simp only [Child] at hc
      rcases hc with rfl | rfl
      · refine .intro (by simp) fun c hc => ?_
        simp only [Child, GL] at hc
        cases hc
        exact .intro (by simp) (by simp [Child, Cond.Has])
      · exact .intro (by simp) (by simp [Child])
    · exact .intro (by simp) (by simp [Child])
  rcases key _ hi i rfl with rfl | rfl <;> decide

/-- What one thread does on `(1, 2)`. -/
def logL : List Ev :=
  [.acq 2, .rel 2, .acq 1, .acq 2, .rel 2, .acq 2, .rel 2, .acq 2, .rel 2, .acq 0, .rel 0, .acq 2, .rel 2,
   .acq 2, .rel 2, .acq 0, .rel 0, .acq 2, .rel 2, .acq 2, .rel 2, .rel 1]

example : MatchLog GL (some (.cell 2)) "(1, 2)".toList (.cell 1) 0 (.ok ⟨0, 6⟩ 6) logL :=
  ⟨30, .ok ⟨0, 6⟩, 6, by decide +kernel, rfl⟩

/-- The hypotheses of `C67_no_deadlock` for five threads that all do this twice. -/
example : ∃ w : Nat → List Ev, (∀ t, t < 5 → ThreadLog rankL GL (w t)) ∧ (∀ t, 5 ≤ t → w t = []) ∧
    totalWork w 5 = 220 := by
  have h : MatchLog GL (some (.cell 2)) "(1, 2)".toList (.cell 1) 0 (.ok ⟨0, 6⟩ 6) logL :=
    ⟨30, .ok ⟨0, 6⟩, 6, by decide +kernel, rfl⟩
  refine ⟨fun t => if t < 5 then logL ++ (logL ++ []) else [], fun t ht => ?_, fun t ht => ?_, by decide⟩
  · simp only [ht, if_true]
    exact .mat h policyBelow_GL (.mat h policyBelow_GL .idle)
  · have : ¬ t < 5 := by omega
    simp [this]

/-! ## Without an order -/

/-- Two handles that use each other: `(` then the other or `a`; `[` then the other or `b`. -/
def GD : Rules Char Nat := fun i =>
  if i = 0 then some (.or (.thn (.lit ['(']) (.cell 1)) (.lit ['a']))
  else if i = 1 then some (.or (.thn (.lit ['[']) (.cell 0)) (.lit ['b']))
  else none

/-- **C67 (the order is needed).** Handles that use each other, two threads, each of
which is done when it is alone: if both have locked their first handle, neither can
go on, ever. -/
theorem C67_deadlock_counterexample :
    ∃ u v, MatchLog GD none "(b".toList (.cell 0) 0 (.ok ⟨0, 2⟩ 2) u ∧
      MatchLog GD none "[a".toList (.cell 1) 0 (.ok ⟨0, 2⟩ 2) v ∧
      (∃ s, Sys.Run u.length (Sys.start (alone u)) s) ∧
      (∃ s, Sys.Run v.length (Sys.start (alone v)) s) ∧
      ∃ s, Sys.Run 2 (Sys.start fun t => if t = 0 then u else if t = 1 then v else []) s ∧
        s.todo 0 ≠ [] ∧ s.todo 1 ≠ [] ∧ ∀ s', ¬ s.Step s' := by
  refine ⟨[.acq 0, .acq 1, .rel 1, .rel 0], [.acq 1, .acq 0, .rel 0, .rel 1],
    ⟨20, .ok ⟨0, 2⟩, 2, by decide +kernel, rfl⟩, ⟨20, .ok ⟨0, 2⟩, 2, by decide +kernel, rfl⟩,
    ?_, ?_, ?_⟩
  · refine (alone_run (h := []) ?_ (by simp) (by simp)).mpr (by decide)
    exact .block (u := [.acq 1, .rel 1]) (v := []) (.block (u := []) .nil .nil) .nil
  · refine (alone_run (h := []) ?_ (by simp) (by simp)).mpr (by decide)
    exact .block (u := [.acq 0, .rel 0]) (v := []) (.block (u := []) .nil .nil) .nil
  · refine ⟨_, .step (.step (.refl _) (.acquire (t := 0) (i := 0) rfl rfl)) (.acquire (t := 1) (i := 1) rfl rfl),
      by simp [upd, Sys.start], by simp [upd, Sys.start], fun s' hs => ?_⟩
    cases hs with
    | @acquire t i w ht hf =>
      by_cases h0 : t = 0
      · subst h0
        simp [upd, Sys.start] at ht
        simp [upd, ← ht.1] at hf
      by_cases h1 : t = 1
      · subst h1
        simp [upd, Sys.start] at ht
        simp [upd, ← ht.1] at hf
      · simp [upd, Sys.start, h0, h1] at ht
    | @release t i w ht hf =>
      by_cases h0 : t = 0
      · subst h0
        simp [upd, Sys.start] at ht
      by_cases h1 : t = 1
      · subst h1
        simp [upd, Sys.start] at ht
      · simp [upd, Sys.start, h0, h1] at ht

/-! ## One thread: C34 for any number of handles -/

/-- **C34 (matching, any number of handles).** With mutex handles on one thread,
matching returns `r` exactly if it returns `r` with plain handles *and* on the way it
never locks a handle that it already holds. -/
theorem C34_sync_iff_no_reentry_match (p : Pat ι β) (o : Nat) (r : Res Span) (hr : r ≠ .panic) :
    RunsSync G pol d p o r ↔ ∃ w, MatchLog G pol d p o r w ∧ NoReentry [] w := by
  constructor
  · rintro ⟨n, h⟩
    obtain ⟨a, o', rfl⟩ := resOf_cases r hr
    obtain ⟨w, hw, _, hF⟩ := ((lrel_syncMat (σ := Unit) n [] pol d p).done () () o o' a).mp (liftR_done.mpr h)
    exact ⟨w, ⟨n, a, o', hw, rfl⟩, hF⟩
  · rintro ⟨w, ⟨n, a, o', h, rfl⟩, hF⟩
    have hX := lrel_syncMat (σ := Unit) (G := G) n [] pol d p
    have hW := hX.out () [] o
    rw [h] at hW
    obtain ⟨w', hw, hb, _⟩ := hW
    obtain rfl : w = w' := hw
    exact ⟨n, liftR_done.mp ((hX.done () () o o' a).mpr ⟨w, h, hb, hF⟩)⟩

/-- **C34 (constructing, any number of handles).** -/
theorem C34_sync_iff_no_reentry_construct (p : Pat ι β) (st : σ) (o : Nat) (r : CRes σ (Val β))
    (hr : r ≠ .panic) :
    ConstructsSync G H pol d p st o r ↔ ∃ w, CtorLog G H pol d p st o r w ∧ NoReentry [] w := by
  constructor
  · rintro ⟨n, h⟩
    obtain ⟨a, st', o', rfl⟩ := cresOf_cases r hr
    obtain ⟨w, hw, _, hF⟩ := ((lrel_syncCon n [] pol d p).done st st' o o' a).mp (liftC_done.mpr h)
    exact ⟨w, ⟨n, a, st', o', hw, rfl⟩, hF⟩
  · rintro ⟨w, ⟨n, a, st', o', h, rfl⟩, hF⟩
    have hX := lrel_syncCon (H := H) (G := G) n [] pol d p
    have hW := hX.out st [] o
    rw [h] at hW
    obtain ⟨w', hw, hb, _⟩ := hW
    obtain rfl : w = w' := hw
    exact ⟨n, liftC_done.mp ((hX.done st st' o o' a).mpr ⟨w, h, hb, hF⟩)⟩

theorem balanced_of_matchLog {p : Pat ι β} {o : Nat} {r : Res Span} {w : List Ev}
    (h : MatchLog G pol d p o r w) : Balanced w := by
  obtain ⟨n, a, o', h, _⟩ := h
  have hW := (lrel_syncMat (σ := Unit) (G := G) n [] pol d p).out () [] o
  rw [h] at hW
  obtain ⟨w', hw, hb, _⟩ := hW
  obtain rfl : w = w' := hw
  exact hb

theorem balanced_of_ctorLog {p : Pat ι β} {st : σ} {o : Nat} {r : CRes σ (Val β)} {w : List Ev}
    (h : CtorLog G H pol d p st o r w) : Balanced w := by
  obtain ⟨n, a, st', o', h, _⟩ := h
  have hW := (lrel_syncCon (H := H) (G := G) n [] pol d p).out st [] o
  rw [h] at hW
  obtain ⟨w', hw, hb, _⟩ := hW
  obtain rfl : w = w' := hw
  exact hb

/-- **C34 (the two models agree).** With mutex handles on one thread, a call returns
`r` exactly if it returns `r` with plain handles and the mutexes of `Sys` let the
thread, alone, do everything it has to do. -/
theorem C34_sync_iff_alone_finishes (p : Pat ι β) (o : Nat) :
    (∀ r, r ≠ .panic → (RunsSync G pol d p o r ↔
      ∃ w, MatchLog G pol d p o r w ∧ ∃ s, Sys.Run w.length (Sys.start (alone w)) s)) ∧
    (∀ st r, r ≠ .panic → (ConstructsSync G H pol d p st o r ↔
      ∃ w, CtorLog G H pol d p st o r w ∧ ∃ s, Sys.Run w.length (Sys.start (alone w)) s)) := by
  constructor
  · intro r hr
    rw [C34_sync_iff_no_reentry_match p o r hr]
    constructor <;> rintro ⟨w, h, h'⟩ <;>
      have := alone_run (h := []) (own := fun _ => none) (balanced_of_matchLog h) (by simp) (by simp)
    · exact ⟨w, h, this.mpr h'⟩
    · exact ⟨w, h, this.mp h'⟩
  · intro st r hr
    rw [C34_sync_iff_no_reentry_construct p st o r hr]
    constructor <;> rintro ⟨w, h, h'⟩ <;>
      have := alone_run (h := []) (own := fun _ => none) (balanced_of_ctorLog h) (by simp) (by simp)
    · exact ⟨w, h, this.mpr h'⟩
    · exact ⟨w, h, this.mp h'⟩

/-- Two handles that use each other, on one thread: `(b` goes through both and returns … -/
example : RunsSync GD none "(b".toList (.cell 0) 0 (.ok ⟨0, 2⟩ 2) := ⟨20, by decide +kernel⟩

/-- … and `([a` comes back to the first. -/
example : ∃ w, MatchLog GD none "([a".toList (.cell 0) 0 (.ok ⟨0, 3⟩ 3) w ∧ ¬ NoReentry [] w :=
  ⟨[.acq 0, .acq 1, .acq 0, .rel 0, .rel 1, .rel 0],
   ⟨20, .ok ⟨0, 3⟩, 3, by decide +kernel, rfl⟩, by decide⟩

end Neure
