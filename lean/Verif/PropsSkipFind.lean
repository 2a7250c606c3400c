import Verif.Calm
import Verif.PropsUnit
/-!
# C92: searching in a context that skips
-/

namespace Neure

set_option linter.unusedSectionVars false
set_option linter.unusedSimpArgs false

open Demo

variable {ι β α : Type} [Item ι] {G : Rules ι β} {w : Pat ι β} {d : List ι} {p : Pat ι β}

/-! ## Specification -/

/-- What the policy `w` does on `d`.  From a position it reaches the end of a stretch, and it reaches the same end
from every position of the stretch at which skipping can start (`V`); or it fails without moving.  At the other
positions it does not move. -/
structure SkipsStretches (G : Rules ι β) (w : Pat ι β) (d : List ι) (V : Nat → Prop) : Prop where
  stretch : ∀ o, o ≤ blen d →
    (∃ o1, o ≤ o1 ∧ o1 ≤ blen d ∧
      ∀ j, o ≤ j → j ≤ o1 → j = o ∨ j = o1 ∨ V j → ∃ s, Runs G none d w j (.ok s o1)) ∨
    ∃ e, Runs G none d w o (.err e o)
  still : ∀ o, o ≤ blen d → ¬ V o → ∀ s o', Runs G none d w o (.ok s o') → o' = o

/-- From a position of `d` at or behind `o` everything up to the end is skipped. -/
def EndsSkipped (G : Rules ι β) (w : Pat ι β) (d : List ι) (o : Nat) : Prop :=
  ∃ j s, o ≤ j ∧ j < blen d ∧ Runs G none d w j (.ok s (blen d))

/-- `p` matches nothing where skipping cannot start. -/
def Outside (G : Rules ι β) (w : Pat ι β) (d : List ι) (V : Nat → Prop) (p : Pat ι β) : Prop :=
  ∀ j, j < blen d → ¬ V j → NoHit G (some w) d p j

/-- The successive leftmost non-empty matches of a context with policy `w`. -/
inductive HitsSkipping (G : Rules ι β) (w : Pat ι β) (d : List ι) (p : Pat ι β) : Nat → List Span → Prop where
  | nil {o : Nat} : (∀ j, o ≤ j → j < blen d → NoHit G (some w) d p j) → HitsSkipping G w d p o []
  | cons {o k o' : Nat} {s : Span} {l : List Span} : FirstHit G (some w) d p o k s o' →
      HitsSkipping G w d p o' l → HitsSkipping G w d p o (s :: l)

/-- The consecutive non-empty matches of a context with policy `w`. -/
inductive SeqSkipping (G : Rules ι β) (pol : Option (Pat ι β)) (d : List ι) (p : Pat ι β) :
    Nat → List Span → Nat → Prop where
  | nil {o e : Nat} : (o < blen d → NoHit G pol d p o) → e = max o (blen d) → SeqSkipping G pol d p o [] e
  | cons {o o' e : Nat} {s : Span} {l : List Span} : o < blen d → Hit G pol d p o s o' →
      SeqSkipping G pol d p o' l e → SeqSkipping G pol d p o (s :: l) e

/-- Every non-empty match in the context with policy `pol` can be extracted. -/
def ExtractableIn (G : Rules ι β) (pol : Option (Pat ι β)) (d : List ι) (p : Pat ι β) (x : Extract ι α) : Prop :=
  ∀ k s o', k ≤ blen d → Hit G pol d p k s o' → ∃ a, x.invoke d s = .ok a

/-! ## One attempt -/

theorem runs_after {o o1 : Nat} {s : Span} (hw : Runs G none d w o (.ok s o1)) (r : Res Span) :
    Runs G (some w) d p o r ↔ Parses G (some w) d p o1 r := by
  rw [runs_iff, matL_some, runs_iff.mp hw, parses_iff]; rfl

theorem runs_skip_err {o : Nat} {e : Error} (hw : Runs G none d w o (.err e o)) (r : Res Span) :
    Runs G (some w) d p o r ↔ r = .err e o := by
  rw [runs_iff, matL_some, runs_iff.mp hw]
  simp only [caseR, Option.some.injEq]
  exact eq_comm

/-- One round of a search in a context that skips. -/
theorem skip_step {skipTo : Nat → Nat} {x : Extract ι α} {V : Nat → Prop} (hw : SkipsStretches G w d V) (hp : All G Tidy p)
    (hx : ExtractableIn G (some w) d p x) {func : Processor}
    (hf1 : ∀ s o, s.len ≠ 0 → func (.ok s) o = (some s, o))
    (hf2 : ∀ s o, s.len = 0 → func (.ok s) o = (none, skipTo o))
    (hf3 : ∀ e o, func (.error e) o = (none, skipTo o)) (o : Nat) (ho : o < blen d) :
    ∃ o1, o ≤ o1 ∧ o1 ≤ blen d ∧ (∀ j, o ≤ j → j ≤ o1 → V j → ∀ r, Runs G (some w) d p j r ↔ Runs G (some w) d p o r) ∧
      (EndsSkipped G w d o ↔ o1 = blen d ∨ EndsSkipped G w d (o1 + 1)) ∧
      ∀ r, (∃ n, findLoop (tryMat G n (some w) d p) (blen d) func (x.invoke d) n o = some r) ↔
        (NoHit G (some w) d p o ∧
          ∃ n, findLoop (tryMat G n (some w) d p) (blen d) func (x.invoke d) n (skipTo o1) = some r) ∨
        (∃ s o' a, Hit G (some w) d p o s o' ∧ x.invoke d s = .ok a ∧ r = .ok (some a) o') ∨
        (Runs G (some w) d p o .panic ∧ r = .panic) := by
  have key := findLoop_iff (len := blen d) (func := func) (h := x.invoke d)
    (fun o => tryMat_mono G (some w) d p o) o
  have fin : ∀ o1, (∀ s o', Runs G (some w) d p o (.ok s o') → s.len = 0 → o' = o1) →
      (∀ e o', Runs G (some w) d p o (.err e o') → o' = o1) →
      ∀ r, (∃ n, findLoop (tryMat G n (some w) d p) (blen d) func (x.invoke d) n o = some r) ↔
        (NoHit G (some w) d p o ∧
          ∃ n, findLoop (tryMat G n (some w) d p) (blen d) func (x.invoke d) n (skipTo o1) = some r) ∨
        (∃ s o' a, Hit G (some w) d p o s o' ∧ x.invoke d s = .ok a ∧ r = .ok (some a) o') ∨
        (Runs G (some w) d p o .panic ∧ r = .panic) := by
    intro o1 c1 c2 r
    rw [key r, if_pos ho]
    constructor
    · rintro ⟨v, hv, hb⟩
      cases v with
      | ok s o' =>
        by_cases hs : s.len = 0
        · simp only [BodyGives, hf2 s o' hs] at hb
          rw [c1 s o' hv hs] at hb
          exact .inl ⟨.inr ⟨s, o', hv, hs⟩, hb⟩
        · obtain ⟨a, ha⟩ := hx o s o' (by omega) ⟨hv, hs⟩
          simp only [BodyGives, hf1 s o' hs, ha] at hb
          exact .inr (.inl ⟨s, o', a, ⟨hv, hs⟩, ha, hb⟩)
      | err e o' =>
        simp only [BodyGives, hf3] at hb
        rw [c2 e o' hv] at hb
        exact .inl ⟨.inl ⟨e, o', hv⟩, hb⟩
      | panic => exact .inr (.inr ⟨hv, hb⟩)
    · rintro (⟨hn, hb⟩ | ⟨s, o', a, ⟨hv, hs⟩, ha, rfl⟩ | ⟨hv, rfl⟩)
      · rcases hn with ⟨e, o', hv⟩ | ⟨s, o', hv, hs⟩
        · exact ⟨.err e o', hv, by simpa only [BodyGives, hf3, c2 e o' hv] using hb⟩
        · refine ⟨.ok s o', hv, ?_⟩
          simp only [BodyGives, hf2 s o' hs]
          rwa [c1 s o' hv hs]
      · exact ⟨.ok s o', hv, by simp only [BodyGives, hf1 s o' hs, ha]⟩
      · exact ⟨.panic, hv, rfl⟩
  rcases hw.stretch o (by omega) with ⟨o1, h1, h2, h3⟩ | ⟨e, he⟩
  · obtain ⟨s0, hs0⟩ := h3 o (Nat.le_refl _) h1 (.inl rfl)
    obtain ⟨s1, hs1⟩ := h3 o1 h1 (Nat.le_refl _) (.inr (.inl rfl))
    have rest : RestsAt G w d o1 :=
      ⟨fun s o' hr => by cases hr.unique hs1; rfl, fun e o' hr => by cases hr.unique hs1⟩
    have calm : ∀ r, Runs G (some w) d p o r → CalmAt o1 r := by
      intro r hr
      obtain ⟨n, hn⟩ := (runs_after hs0 r).mp hr
      exact calm_inv G w n d p o1 rest hp r hn
    refine ⟨o1, h1, h2, fun j hj hj' hV r => ?_, ⟨?_, ?_⟩, fin o1 (fun s o' hr => calm _ hr) (fun e o' hr => calm _ hr)⟩
    · obtain ⟨s, hs⟩ := h3 j hj hj' (.inr (.inr hV))
      rw [runs_after hs, runs_after hs0]
    · rintro ⟨j, s, hj, hj', hs⟩
      by_cases hle : j ≤ o1
      · by_cases hV : V j
        · obtain ⟨s', hs'⟩ := h3 j hj hle (.inr (.inr hV))
          cases hs.unique hs'
          exact .inl rfl
        · have := hw.still j (by omega) hV s _ hs
          omega
      · exact .inr ⟨j, s, by omega, hj', hs⟩
    · rintro (rfl | ⟨j, s, hj, hj', hs⟩)
      · exact ⟨o, s0, Nat.le_refl _, ho, hs0⟩
      · exact ⟨j, s, by omega, hj', hs⟩
  · refine ⟨o, Nat.le_refl _, by omega, fun j hj hj' _ r => ?_, ⟨?_, ?_⟩,
      fin o (fun s o' hr _ => ?_) (fun e' o' hr => ?_)⟩
    · have : j = o := by omega
      rw [this]
    · rintro ⟨j, s, hj, hj', hs⟩
      by_cases hjo : j = o
      · subst hjo; cases hs.unique he
      · exact .inr ⟨j, s, by omega, hj', hs⟩
    · rintro (rfl | ⟨j, s, hj, hj', hs⟩)
      · omega
      · exact ⟨j, s, by omega, hj', hs⟩
    · cases (runs_skip_err he _).mp hr
    · cases (runs_skip_err he _).mp hr; rfl

/-! ## `find` -/

/-- **C92 (find).** In a context that skips, `find(p)` from `o` returns `Some` exactly at the leftmost position
from which `p`, after skipping, matches non-emptily, with what that match covers, and leaves the context behind
it.  It returns `None` exactly when there is no such position; the context is then at the end of the text, or one
behind it when the text ends in something skipped. -/
theorem C92_find {x : Extract ι α} {V : Nat → Prop} (hw : SkipsStretches G w d V) (hV : Outside G w d V p)
    (hp : All G Tidy p) (hx : ExtractableIn G (some w) d p x) (o o' : Nat) :
    (∀ a, Finds G (some w) d p x o (.ok (some a) o') ↔
      ∃ k s, FirstHit G (some w) d p o k s o' ∧ x.invoke d s = .ok a) ∧
    (Finds G (some w) d p x o (.ok none o') ↔
      (∀ j, o ≤ j → j < blen d → NoHit G (some w) d p j) ∧
      ((blen d ≤ o ∧ o' = o) ∨ (o < blen d ∧ EndsSkipped G w d o ∧ o' = blen d + 1) ∨
        (o < blen d ∧ ¬ EndsSkipped G w d o ∧ o' = blen d))) := by
  have atEnd : ∀ o r, blen d ≤ o → (Finds G (some w) d p x o r ↔ r = .ok none o) := by
    intro o r hge
    have key := findLoop_iff (len := blen d) (func := findProc) (h := x.invoke d)
      (fun o => tryMat_mono G (some w) d p o) o r
    rw [if_neg (by omega)] at key
    exact key
  generalize hm : blen d - o = m
  induction m using Nat.strongRecOn generalizing o with
  | ind m ih =>
    by_cases hlt : o < blen d
    · obtain ⟨o1, h1, h2, h3, h4, h5⟩ := skip_step (skipTo := (· + 1)) hw hp hx (func := findProc)
        (fun s o h => by simp [findProc, h]) (fun s o h => by simp [findProc, h]) (fun e o => rfl) o hlt
      have h5 : ∀ r, Finds G (some w) d p x o r ↔
        (NoHit G (some w) d p o ∧ Finds G (some w) d p x (o1 + 1) r) ∨
        (∃ s o' a, Hit G (some w) d p o s o' ∧ x.invoke d s = .ok a ∧ r = .ok (some a) o') ∨
        (Runs G (some w) d p o .panic ∧ r = .panic) := h5
      have noHit : ∀ j, o ≤ j → j ≤ o1 → j < blen d → NoHit G (some w) d p o → NoHit G (some w) d p j := by
        intro j hj hj' hl hn
        by_cases hVj : V j
        · simpa only [NoHit, Fails, h3 j hj hj' hVj] using hn
        · exact hV j hl hVj
      have none1 : ∀ j, blen d ≤ j → ¬ EndsSkipped G w d j := by
        rintro j hj ⟨i, s, h1, h2, -⟩; omega
      obtain ⟨ih1, ih2⟩ := ih (blen d - (o1 + 1)) (by omega) (o1 + 1) rfl
      constructor
      · intro a
        rw [h5]
        constructor
        · rintro (⟨hn, h⟩ | ⟨s, o2, a', hh, ha, h⟩ | ⟨-, h⟩)
          · obtain ⟨k, s, ⟨k1, k2, k3, k4⟩, k5⟩ := (ih1 a).mp h
            refine ⟨k, s, ⟨by omega, k2, fun j hj hj' => ?_, k4⟩, k5⟩
            by_cases hjo : j ≤ o1
            · exact noHit j hj hjo (by omega) hn
            · exact k3 j (by omega) hj'
          · cases h
            exact ⟨o, s, ⟨Nat.le_refl _, hlt, fun j h1 h2 => by omega, hh⟩, ha⟩
          · cases h
        · rintro ⟨k, s, ⟨k1, k2, k3, k4⟩, k5⟩
          by_cases hko : k ≤ o1
          · by_cases hVk : V k
            · exact .inr (.inl ⟨s, o', a, ⟨(h3 k k1 hko hVk _).mp k4.1, k4.2⟩, k5, rfl⟩)
            · rcases hV k k2 hVk with ⟨e, o2, hr⟩ | ⟨s', o2, hr, h0⟩
              · cases hr.unique k4.1
              · cases hr.unique k4.1; exact absurd h0 k4.2
          · exact .inl ⟨k3 o (Nat.le_refl _) (by omega),
              (ih1 a).mpr ⟨k, s, ⟨by omega, k2, fun j hj hj' => k3 j (by omega) hj', k4⟩, k5⟩⟩
      · rw [h5]
        constructor
        · rintro (⟨hn, h⟩ | ⟨s, o2, a', hh, ha, h⟩ | ⟨-, h⟩)
          · obtain ⟨k1, k2⟩ := ih2.mp h
            refine ⟨fun j hj hj' => ?_, .inr ?_⟩
            · by_cases hjo : j ≤ o1
              · exact noHit j hj hjo hj' hn
              · exact k1 j (by omega) hj'
            · rcases k2 with ⟨k2, rfl⟩ | ⟨k2, k3, rfl⟩ | ⟨k2, k3, rfl⟩
              · by_cases he : o1 = blen d
                · exact .inl ⟨hlt, h4.mpr (.inl he), by omega⟩
                · exact .inr ⟨hlt, fun h => (h4.mp h).elim he (none1 _ k2), by omega⟩
              · exact .inl ⟨hlt, h4.mpr (.inr k3), rfl⟩
              · exact .inr ⟨hlt, fun h => (h4.mp h).elim (by omega) k3, rfl⟩
          · cases h
          · cases h
        · rintro ⟨k1, k2⟩
          refine .inl ⟨k1 o (Nat.le_refl _) hlt, ih2.mpr ⟨fun j hj hj' => k1 j (by omega) hj', ?_⟩⟩
          rcases k2 with ⟨k2, rfl⟩ | ⟨k2, k3, rfl⟩ | ⟨k2, k3, rfl⟩
          · omega
          · rcases h4.mp k3 with he | he
            · exact .inl ⟨by omega, by omega⟩
            · by_cases hle : blen d ≤ o1 + 1
              · exact absurd he (none1 _ hle)
              · exact .inr (.inl ⟨by omega, he, rfl⟩)
          · have h6 : o1 ≠ blen d := fun h => k3 (h4.mpr (.inl h))
            have h7 : ¬ EndsSkipped G w d (o1 + 1) := fun h => k3 (h4.mpr (.inr h))
            by_cases hle : blen d ≤ o1 + 1
            · exact .inl ⟨hle, by omega⟩
            · exact .inr (.inr ⟨by omega, h7, rfl⟩)
    · have hge : blen d ≤ o := by omega
      constructor
      · intro a
        rw [atEnd _ _ hge]
        constructor
        · intro h; cases h
        · rintro ⟨k, s, ⟨h1, h2, -⟩, -⟩; omega
      · rw [atEnd _ _ hge]
        constructor
        · intro h; cases h; exact ⟨fun j h1 h2 => by omega, .inl ⟨hge, rfl⟩⟩
        · rintro ⟨-, ⟨-, rfl⟩ | ⟨h, -⟩ | ⟨h, -⟩⟩
          · rfl
          all_goals omega

/-! ## `find_all` -/

/-- **C92 (find_all).** Draining `find_all(p)` in a context that skips yields exactly the successive leftmost
non-empty matches. -/
theorem C92_find_all {x : Extract ι α} {V : Nat → Prop} (hw : SkipsStretches G w d V) (hV : Outside G w d V p)
    (hp : All G Tidy p) (hx : ExtractableIn G (some w) d p x) (o : Nat) (l : List α) :
    (∃ e, FindsAll G (some w) d p x o (.ok l e)) ↔
      ∃ ss, HitsSkipping G w d p o ss ∧ ss.map (x.invoke d) = l.map .ok := by
  have key := fun (o e : Nat) (l : List α) => drain_iff (nx := find G (some w) d p x)
    (fun o => findLoop_mono (fun o => tryMat_mono G (some w) d p o) o) o l e
  induction l generalizing o with
  | nil =>
    have hk : ∀ e, FindsAll G (some w) d p x o (.ok [] e) ↔ Finds G (some w) d p x o (.ok none e) :=
      fun e => key o e []
    simp only [hk, (C92_find hw hV hp hx o _).2]
    constructor
    · rintro ⟨e, h1, -⟩; exact ⟨[], .nil h1, rfl⟩
    · rintro ⟨ss, h1, h2⟩
      have : ss = [] := by simpa using h2
      subst this
      cases h1 with
      | nil h1 =>
        by_cases hlt : o < blen d
        · by_cases he : EndsSkipped G w d o
          · exact ⟨_, h1, .inr (.inl ⟨hlt, he, rfl⟩)⟩
          · exact ⟨_, h1, .inr (.inr ⟨hlt, he, rfl⟩)⟩
        · exact ⟨_, h1, .inl ⟨by omega, rfl⟩⟩
  | cons a l ih =>
    have hk : ∀ e, FindsAll G (some w) d p x o (.ok (a :: l) e) ↔
        ∃ o1, Finds G (some w) d p x o (.ok (some a) o1) ∧ FindsAll G (some w) d p x o1 (.ok l e) :=
      fun e => key o e (a :: l)
    simp only [hk]
    constructor
    · rintro ⟨e, o1, h1, h2⟩
      obtain ⟨k, s, hf, ha⟩ := ((C92_find hw hV hp hx o o1).1 a).mp h1
      obtain ⟨ss, hs, hm⟩ := (ih o1).mp ⟨e, h2⟩
      exact ⟨s :: ss, .cons hf hs, by simp [ha, hm]⟩
    · rintro ⟨ss, hs, hm⟩
      cases hs with
      | nil => simp at hm
      | cons hf hs =>
        simp only [List.map_cons, List.cons.injEq] at hm
        obtain ⟨e, he⟩ := (ih _).mpr ⟨_, hs, hm.2⟩
        exact ⟨e, _, ((C92_find hw hV hp hx o _).1 a).mpr ⟨_, _, hf, hm.1⟩, he⟩

/-! ## `match_seq` -/

theorem seqNext_any {pol : Option (Pat ι β)} {x : Extract ι α} (hx : ExtractableIn G pol d p x) (o o' : Nat) :
    (∀ a, SeqNext G pol d p x o (.ok (some a) o') ↔
      o < blen d ∧ ∃ s, Hit G pol d p o s o' ∧ x.invoke d s = .ok a) ∧
    (SeqNext G pol d p x o (.ok none o') ↔ (o < blen d → NoHit G pol d p o) ∧ o' = max o (blen d)) := by
  have key := fun o r => findLoop_iff (len := blen d) (func := seqProc (blen d)) (h := x.invoke d)
    (fun o => tryMat_mono G pol d p o) o r
  have atEnd : ∀ r, (∃ n, findLoop (tryMat G n pol d p) (blen d) (seqProc (blen d)) (x.invoke d) n (blen d) = some r) ↔
      r = .ok none (blen d) := by
    intro r; rw [key, if_neg (by omega)]
  have main : ∀ r, SeqNext G pol d p x o r ↔ if o < blen d then
      (NoHit G pol d p o ∧ r = .ok none (blen d)) ∨
      (∃ s o' a, Hit G pol d p o s o' ∧ x.invoke d s = .ok a ∧ r = .ok (some a) o') ∨
      (Runs G pol d p o .panic ∧ r = .panic) else r = .ok none o := by
    intro r
    refine (key o r).trans ?_
    by_cases hlt : o < blen d
    · rw [if_pos hlt, if_pos hlt]
      constructor
      · rintro ⟨v, hv, hb⟩
        cases v with
        | ok s o' =>
          by_cases hs : s.len = 0
          · simp only [BodyGives, seqProc, hs, ne_eq, not_true, if_false, atEnd] at hb
            exact .inl ⟨.inr ⟨s, o', hv, hs⟩, hb⟩
          · obtain ⟨a, ha⟩ := hx o s o' (by omega) ⟨hv, hs⟩
            simp only [BodyGives, seqProc, hs, ne_eq, not_false_iff, if_true, ha] at hb
            exact .inr (.inl ⟨s, o', a, ⟨hv, hs⟩, ha, hb⟩)
        | err e o' =>
          simp only [BodyGives, seqProc, atEnd] at hb
          exact .inl ⟨.inl ⟨e, o', hv⟩, hb⟩
        | panic => exact .inr (.inr ⟨hv, hb⟩)
      · rintro (⟨hn, rfl⟩ | ⟨s, o', a, ⟨hv, hs⟩, ha, rfl⟩ | ⟨hv, rfl⟩)
        · rcases hn with ⟨e, o', hv⟩ | ⟨s, o', hv, hs⟩
          · exact ⟨.err e o', hv, by simp only [BodyGives, seqProc, atEnd]⟩
          · exact ⟨.ok s o', hv, by simp only [BodyGives, seqProc, hs, ne_eq, not_true, if_false, atEnd]⟩
        · exact ⟨.ok s o', hv, by simp only [BodyGives, seqProc, hs, ne_eq, not_false_iff, if_true, ha]⟩
        · exact ⟨.panic, hv, rfl⟩
    · rw [if_neg hlt, if_neg hlt]
  constructor
  · intro a
    rw [main]
    by_cases hlt : o < blen d
    · rw [if_pos hlt]
      constructor
      · rintro (⟨-, h⟩ | ⟨s, o1, a', hh, ha, h⟩ | ⟨-, h⟩)
        · cases h
        · cases h; exact ⟨hlt, s, hh, ha⟩
        · cases h
      · rintro ⟨-, s, hh, ha⟩; exact .inr (.inl ⟨s, o', a, hh, ha, rfl⟩)
    · rw [if_neg hlt]
      constructor
      · intro h; cases h
      · rintro ⟨h, -⟩; omega
  · rw [main]
    by_cases hlt : o < blen d
    · rw [if_pos hlt]
      constructor
      · rintro (⟨hn, h⟩ | ⟨s, o1, a', hh, ha, h⟩ | ⟨-, h⟩)
        · cases h; exact ⟨fun _ => hn, by omega⟩
        · cases h
        · cases h
      · rintro ⟨hn, rfl⟩
        exact .inl ⟨hn hlt, by rw [Nat.max_eq_right (by omega)]⟩
    · rw [if_neg hlt]
      constructor
      · intro h; cases h; exact ⟨fun h => by omega, by omega⟩
      · rintro ⟨-, rfl⟩; rw [Nat.max_eq_left (by omega)]

/-- **C92 (match_seq).** In every context, whatever it skips, draining `match_seq(p)` yields exactly the maximal
sequence of consecutive non-empty matches and leaves the context at the end of the text. -/
theorem C92_match_seq {pol : Option (Pat ι β)} {x : Extract ι α} (hx : ExtractableIn G pol d p x) (o e : Nat)
    (l : List α) :
    MatchSeqs G pol d p x o (.ok l e) ↔
      ∃ ss, SeqSkipping G pol d p o ss e ∧ ss.map (x.invoke d) = l.map .ok := by
  have key := fun (o : Nat) (l : List α) => drain_iff (nx := seqNext G pol d p x)
    (fun o => findLoop_mono (fun o => tryMat_mono G pol d p o) o) o l e
  induction l generalizing o with
  | nil =>
    have hk : MatchSeqs G pol d p x o (.ok [] e) ↔ SeqNext G pol d p x o (.ok none e) := key o []
    rw [hk, (seqNext_any hx o e).2]
    constructor
    · rintro ⟨h1, h2⟩; exact ⟨[], .nil h1 h2, rfl⟩
    · rintro ⟨ss, h1, h2⟩
      have : ss = [] := by simpa using h2
      subst this
      cases h1 with | nil h1 h2 => exact ⟨h1, h2⟩
  | cons a l ih =>
    have hk : MatchSeqs G pol d p x o (.ok (a :: l) e) ↔
        ∃ o1, SeqNext G pol d p x o (.ok (some a) o1) ∧ MatchSeqs G pol d p x o1 (.ok l e) :=
      key o (a :: l)
    rw [hk]
    constructor
    · rintro ⟨o1, h1, h2⟩
      obtain ⟨hlt, s, hf, ha⟩ := ((seqNext_any hx o o1).1 a).mp h1
      obtain ⟨ss, hs, hm⟩ := (ih o1).mp h2
      exact ⟨s :: ss, .cons hlt hf hs, by simp [ha, hm]⟩
    · rintro ⟨ss, hs, hm⟩
      cases hs with
      | nil => simp at hm
      | cons hlt hf hs =>
        simp only [List.map_cons, List.cons.injEq] at hm
        exact ⟨_, ((seqNext_any hx o _).1 a).mpr ⟨hlt, _, hf, hm.1⟩, (ih _).mpr ⟨_, hs, hm.2⟩⟩

/-! ## Policies that skip blanks -/

theorem takeWhile_prefixed {f : ι → Bool} {a b : List ι} (h : ∀ c ∈ a, f c = true) :
    (a ++ b).takeWhile f = a ++ b.takeWhile f := by
  induction a with
  | nil => rfl
  | cons c a ih => simp [List.takeWhile_cons, h c (by simp), ih fun c hc => h c (by simp [hc])]

/-- At a boundary: any number of blanks is skipped, from every boundary of the stretch. -/
theorem blanks_stretch (u : Neu ι) (d : List ι) (o : Nat) (hv : Valid d o) :
    ∃ o1, o ≤ o1 ∧ o1 ≤ blen d ∧ Valid d o1 ∧
      (∀ j, o ≤ j → j ≤ o1 → Valid d j → ∃ s, Runs (β := β) G none d (.many0 u .empty) j (.ok s o1)) ∧
      ∃ a b, dropB d o = some (a ++ b) ∧ (∀ c ∈ a, u.isMatch c = true) ∧ o1 = o + blen a := by
  obtain ⟨pre, post, rfl, rfl⟩ := hv
  have all : ∀ c ∈ post.takeWhile u.isMatch, u.isMatch c = true :=
    fun c hc => List.all_eq_true.mp List.all_takeWhile c hc
  refine ⟨blen pre + blen (post.takeWhile u.isMatch), by omega, ?_, ?_, fun j hj hj' hv => ?_,
    post.takeWhile u.isMatch, post.dropWhile u.isMatch, ?_, all, rfl⟩
  · have : blen post = blen (post.takeWhile u.isMatch) + blen (post.dropWhile u.isMatch) := by
      rw [← blen_append, List.takeWhile_append_dropWhile]
    rw [blen_append]; omega
  · exact ⟨pre ++ post.takeWhile u.isMatch, post.dropWhile u.isMatch,
      by rw [List.append_assoc, List.takeWhile_append_dropWhile], by rw [blen_append]⟩
  · obtain ⟨pre', post', he, rfl⟩ := hv
    rcases List.append_eq_append_iff.mp he with ⟨a, rfl, hp⟩ | ⟨a, rfl, hp⟩
    · -- `pre' = pre ++ a`, `post = a ++ post'`
      subst hp
      have hall : ∀ c ∈ a, u.isMatch c = true := by
        have hsub : blen a ≤ blen ((a ++ post').takeWhile u.isMatch) := by
          rw [blen_append] at hj'; omega
        intro c hc
        have hpre : a <+: (a ++ post').takeWhile u.isMatch := by
          have h1 : (a ++ post').takeWhile u.isMatch <+: a ++ post' := List.takeWhile_prefix _
          have h2 : a <+: a ++ post' := List.prefix_append _ _
          rcases List.prefix_or_prefix_of_prefix h2 h1 with h | h
          · exact h
          · obtain ⟨t, ht⟩ := h
            have h3 : blen a = blen ((a ++ post').takeWhile u.isMatch) + blen t := by
              rw [← blen_append, ht]
            have : t = [] := by
              cases t with
              | nil => rfl
              | cons x t => have := Item.size_pos x; simp only [blen_cons] at h3; omega
            subst this
            rw [List.append_nil] at ht
            rw [ht]
            exact List.prefix_refl _
        exact all c (hpre.subset hc)
      have h1 := (C23_many0_takeWhile (β := β) (G := G) (pol := none) (d := pre ++ (a ++ post')) u (pre ++ a) post' (by simp) _).mpr rfl
      rw [takeWhile_prefixed hall, blen_append]
      rw [blen_append] at h1
      rw [blen_append, ← Nat.add_assoc]
      exact ⟨_, h1⟩
    · have : a = [] := by
        cases a with
        | nil => rfl
        | cons x t => have := Item.size_pos x; simp only [blen_append, blen_cons] at hj; omega
      subst this
      simp only [List.append_nil, List.nil_append] at *
      subst hp
      exact ⟨_, (C23_many0_takeWhile (β := β) (G := G) (pol := none) (d := pre' ++ post') u pre' post' rfl _).mpr rfl⟩
  · rw [List.takeWhile_append_dropWhile, dropB_append]

/-- Inside a character nothing is skipped. -/
theorem blanks_inside (u : Neu ι) (d : List ι) (o : Nat) (hle : o ≤ blen d) (hv : ¬ Valid d o) :
    Runs (β := β) G none d (.many0 u .empty) o (.ok ⟨o, 0⟩ o) := by
  have hnone : dropB d o = none := by
    cases h : dropB d o with
    | none => rfl
    | some l => exact absurd (valid_iff_dropB.mpr ⟨l, h⟩) hv
  have hpk : peek d o = .err .outOfBound := by
    unfold peek origAt
    rw [if_neg (by simp; intro _; omega), hnone]
  refine ⟨1, ?_⟩
  simp only [tryMat, matWith, parse, step, many0Parse, remK, if_pos hle, hpk, caseO]

/-- **C92 (whitespace).** Skipping any number of blanks, as `skip_ws` does, is such a policy on every text;
skipping can start at the character boundaries. -/
theorem C92_whitespace (u : Neu ι) (d : List ι) :
    SkipsStretches (β := β) G (.many0 u .empty) d (Valid d) where
  stretch o ho := by
    left
    by_cases hv : Valid d o
    · obtain ⟨o1, h1, h2, h3, h4, -⟩ := blanks_stretch (β := β) (G := G) u d o hv
      refine ⟨o1, h1, h2, fun j hj hj' h => h4 j hj hj' ?_⟩
      rcases h with rfl | rfl | h
      · exact hv
      · exact h3
      · exact h
    · refine ⟨o, Nat.le_refl _, ho, fun j hj hj' _ => ?_⟩
      have : j = o := by omega
      subst this
      exact ⟨_, blanks_inside u d j ho hv⟩
  still o ho hv s o' hr := by cases hr.unique (blanks_inside u d o ho hv); rfl

/-- **C92 (inside characters).** A pattern that does not look inside characters matches nothing there, after
whatever is skipped. -/
theorem C92_outside (u : Neu ι) (d : List ι) (p : Pat ι β) (ha : All G Aligned p)
    (ht : ∀ j, j < blen d → Matches G (some (.many0 u .empty)) d p j ∨ Fails G (some (.many0 u .empty)) d p j) :
    Outside G (.many0 u .empty) d (Valid d) p := by
  intro j hj hv
  have hw : ∀ n q, some (Pat.many0 u .empty : Pat ι β) = some q → Sat (parse G n none d q j) (StuckAt j) := by
    intro n q h
    cases h
    exact stuck_inv G n d _ j hv (by omega) (All.intro (by exact trivial) fun _ h => absurd h id)
  have key : ∀ r, Runs G (some (.many0 u .empty)) d p j r → StuckAt j r := by
    rintro r ⟨n, hn⟩
    exact stuck_mat (hw n) (stuck_inv_in G _ n d p j hv (by omega) hw ha) r hn
  rcases ht j hj with ⟨s, o', hs⟩ | hf
  · obtain ⟨rfl, -⟩ := key _ hs
    exact .inr ⟨_, o', hs, rfl⟩
  · exact .inl hf

/-- **C92 (one-byte blanks).** When the blanks have one byte each, as for `skip_ascii_ws`, skipping can start at
every position. -/
theorem C92_blanks (u : Neu ι) (hu : ∀ c, u.isMatch c = true → Item.size c = 1) (d : List ι) :
    SkipsStretches (β := β) G (.many0 u .empty) d (fun _ => True) where
  stretch o ho := by
    left
    by_cases hv : Valid d o
    · obtain ⟨o1, h1, h2, h3, h4, a, b, h5, h6, h7⟩ := blanks_stretch (β := β) (G := G) u d o hv
      refine ⟨o1, h1, h2, fun j hj hj' _ => h4 j hj hj' ?_⟩
      have hb : ∀ l : List ι, (∀ c ∈ l, u.isMatch c = true) → blen l = l.length := by
        intro l
        induction l with
        | nil => intro _; rfl
        | cons c l ih =>
          intro h
          have h1 := hu c (h c (by simp))
          have h2 := ih fun c hc => h c (by simp [hc])
          simp only [blen_cons, List.length_cons]
          omega
      have hlen : blen (a.take (j - o)) = j - o := by
        rw [hb _ fun c hc => h6 c (List.mem_of_mem_take hc), List.length_take, Nat.min_eq_left]
        rw [← hb a h6]; omega
      obtain ⟨c, rfl, rfl⟩ := dropB_eq_some.mp h5
      refine ⟨c ++ a.take (j - blen c), a.drop (j - blen c) ++ b, ?_, ?_⟩
      · rw [List.append_assoc, ← List.append_assoc (a.take _), List.take_append_drop]
      · rw [blen_append, hlen]; omega
    · refine ⟨o, Nat.le_refl _, ho, fun j hj hj' _ => ?_⟩
      have : j = o := by omega
      subst this
      exact ⟨_, blanks_inside u d j ho hv⟩
  still o ho hv := absurd trivial hv

theorem outside_true : Outside G w d (fun _ => True) p := fun _ _ h => absurd trivial h

/-! ## What can be extracted -/

theorem extractableIn_span {pol : Option (Pat ι β)} : ExtractableIn G pol d p .span := fun _ s _ _ _ => ⟨s, rfl⟩

/-- Texts can be extracted when the pattern respects character boundaries. -/
theorem extractableIn_slice (u : Neu ι) (hb : All G (Bounded G (some (.many0 u .empty))) p) (ha : All G Aligned p) :
    ExtractableIn G (some (.many0 u .empty)) d p .slice := by
  intro k s o' hk ⟨hr, hs⟩
  by_cases hv : Valid d k
  · have hpol : BoundPol G (some (.many0 u .empty)) := by
      intro q h; cases h; exact All.intro (by exact trivial) fun _ h => absurd h id
    obtain ⟨h1, -⟩ := C03_spans_are_valid_slices G _ hpol d p hb k hv
    obtain ⟨-, sub, h2, -⟩ := h1 s o' hr
    exact ⟨sub, h2⟩
  · obtain ⟨n, hn⟩ := hr
    have hw : ∀ n q, some (Pat.many0 u .empty : Pat ι β) = some q → Sat (parse G n none d q k) (StuckAt k) := by
      intro n q h
      cases h
      exact stuck_inv G n d _ k hv (by omega) (All.intro (by exact trivial) fun _ h => absurd h id)
    have := stuck_mat (hw n) (stuck_inv_in G _ n d p k hv (by omega) hw ha) _ hn
    simp only [StuckAt] at this
    rw [this.1] at hs
    exact absurd rfl hs

/-! ## No other outcome -/

/-- **C92 (total).** When `p` returns without a panic at every position, `find` returns. -/
theorem C92_find_total {x : Extract ι α} {V : Nat → Prop} (hw : SkipsStretches G w d V) (hV : Outside G w d V p)
    (hp : All G Tidy p) (hx : ExtractableIn G (some w) d p x) (o : Nat)
    (ht : ∀ j, o ≤ j → j < blen d → Matches G (some w) d p j ∨ Fails G (some w) d p j) :
    ∃ r o', Finds G (some w) d p x o (.ok r o') := by
  have key : ∀ n, o + n ≤ blen d → (∀ j, o ≤ j → j < o + n → NoHit G (some w) d p j) ∨
      ∃ k s o', FirstHit G (some w) d p o k s o' := by
    intro n
    induction n with
    | zero => exact fun _ => .inl fun j h1 h2 => by omega
    | succ n ih =>
      intro hn
      rcases ih (by omega) with h | h
      · have one : NoHit G (some w) d p (o + n) ∨ ∃ s o', Hit G (some w) d p (o + n) s o' := by
          rcases ht (o + n) (by omega) (by omega) with ⟨s, o', hs⟩ | hf
          · by_cases h0 : s.len = 0
            · exact .inl (.inr ⟨s, o', hs, h0⟩)
            · exact .inr ⟨s, o', hs, h0⟩
          · exact .inl (.inl hf)
        rcases one with h1 | ⟨s, o', h1⟩
        · refine .inl fun j hj hj' => ?_
          by_cases he : j = o + n
          · rw [he]; exact h1
          · exact h j hj (by omega)
        · exact .inr ⟨o + n, s, o', by omega, by omega, h, h1⟩
      · exact .inr h
  by_cases hlt : o < blen d
  · rcases key (blen d - o) (by omega) with h | ⟨k, s, o', h⟩
    · have hall : ∀ j, o ≤ j → j < blen d → NoHit G (some w) d p j := fun j h1 h2 => h j h1 (by omega)
      by_cases he : EndsSkipped G w d o
      · exact ⟨none, _, (C92_find hw hV hp hx o _).2.mpr ⟨hall, .inr (.inl ⟨hlt, he, rfl⟩)⟩⟩
      · exact ⟨none, _, (C92_find hw hV hp hx o _).2.mpr ⟨hall, .inr (.inr ⟨hlt, he, rfl⟩)⟩⟩
    · obtain ⟨a, ha⟩ := hx k s o' (Nat.le_of_lt h.2.1) h.2.2.2
      exact ⟨some a, o', ((C92_find hw hV hp hx o o').1 a).mpr ⟨k, s, h, ha⟩⟩
  · exact ⟨none, o, (C92_find hw hV hp hx o o).2.mpr ⟨fun j h1 h2 => by omega, .inl ⟨by omega, rfl⟩⟩⟩

/-- **C92 (text, skipping white space).** `find` as text, in a context that skips blanks of any size: it returns
`Some(t)` exactly when `t` is what the pattern covers from the leftmost position with a non-empty match. -/
theorem C92_find_text (u : Neu ι) (hp : All G Tidy p) (hb : All G (Bounded G (some (.many0 u .empty))) p)
    (ha : All G Aligned p)
    (ht : ∀ j, j < blen d → Matches G (some (.many0 u .empty)) d p j ∨ Fails G (some (.many0 u .empty)) d p j)
    (o o' : Nat) (t : List ι) :
    Finds G (some (.many0 u .empty)) d p .slice o (.ok (some t) o') ↔
      ∃ k pre post, d = pre ++ t ++ post ∧
        FirstHit G (some (.many0 u .empty)) d p o k ⟨blen pre, blen t⟩ o' := by
  rw [(C92_find (C92_whitespace u d) (C92_outside u d p ha ht) hp (extractableIn_slice u hb ha) o o').1 t]
  constructor
  · rintro ⟨k, s, hf, hs⟩
    obtain ⟨pre, post, rfl, h1, h2⟩ := origSub_ok.mp hs
    obtain ⟨b, l⟩ := s
    simp only at h1 h2
    subst h1 h2
    exact ⟨k, pre, post, rfl, hf⟩
  · rintro ⟨k, pre, post, rfl, hf⟩
    exact ⟨k, _, hf, origSub_ok.mpr ⟨pre, post, rfl, rfl, rfl⟩⟩

/-! ## Examples -/

-- the hypotheses of `C92_find_text` for a wide blank (three bytes), and a search over it
def wideBlank : Pat Char Nat := .many0 (.item '\u3000') .empty
example : All (G0 : Rules Char Nat) Tidy (.lit ['a']) ∧ All (G0 : Rules Char Nat) (Bounded G0 (some wideBlank)) (.lit ['a']) ∧
    All (G0 : Rules Char Nat) Aligned (.lit ['a']) :=
  ⟨all_lit (by exact trivial), all_lit (by exact trivial), all_lit (by exact trivial)⟩
example : ∀ j, j < blen ['\u3000', 'a'] → Matches (β := Nat) G0 (some wideBlank) ['\u3000', 'a'] (.lit ['a']) j ∨
    Fails (β := Nat) G0 (some wideBlank) ['\u3000', 'a'] (.lit ['a']) j := by
  intro j hj
  have hj : j < 4 := hj
  match j, hj with
  | 0, _ => exact .inl ⟨⟨3, 1⟩, 4, 9, by decide⟩
  | 1, _ => exact .inr ⟨_, _, 9, rfl⟩
  | 2, _ => exact .inr ⟨_, _, 9, rfl⟩
  | 3, _ => exact .inl ⟨⟨3, 1⟩, 4, 9, by decide⟩
example : Finds (β := Nat) G0 (some wideBlank) ['\u3000', 'a'] (.lit ['a']) .slice 0 (.ok (some ['a']) 4) ∧
    Finds (β := Nat) G0 (some wideBlank) ['\u3000', 'a'] (.lit ['a']) .slice 1 (.ok (some ['a']) 4) :=
  ⟨⟨9, by decide⟩, ⟨9, by decide⟩⟩


example (d : List Char) : SkipsStretches (G0 : Rules Char Nat) spaces d (fun _ => True) :=
  C92_blanks (.item ' ') (by intro c h; simp [Neu.isMatch] at h; subst h; rfl) d

-- `a , b` is found at the blank in front of it
example : All (G0 : Rules Char Nat) Tidy (.thn (.lit ['a']) (.lit ['b'])) :=
  All.intro (by exact trivial) fun q h => by
    rcases h with rfl | rfl <;> exact all_lit (by exact trivial)
example : Finds (β := Nat) G0 (some spaces) ['x', ' ', 'a', ' ', 'b', 'c'] (.thn (.lit ['a']) (.lit ['b'])) .span 0
    (.ok (some ⟨2, 3⟩) 5) := ⟨20, by decide⟩
example : FirstHit (β := Nat) G0 (some spaces) ['x', ' ', 'a', ' ', 'b', 'c'] (.thn (.lit ['a']) (.lit ['b'])) 0 1 ⟨2, 3⟩ 5 :=
  ⟨by omega, by decide, fun j h1 h2 => by
    have : j = 0 := by omega
    subst this
    exact .inl ⟨_, _, 9, rfl⟩, ⟨9, by decide⟩, by decide⟩
-- the two ways a failing search ends
example : EndsSkipped (β := Nat) G0 spaces ['a', ' '] 0 ∧
    Finds (β := Nat) G0 (some spaces) ['a', ' '] (.lit ['b']) .span 0 (.ok none 3) :=
  ⟨⟨1, ⟨1, 1⟩, by omega, by decide, 5, by decide⟩, ⟨9, by decide⟩⟩
example : Finds (β := Nat) G0 (some spaces) [' ', 'a'] (.lit ['b']) .span 0 (.ok none 2) := ⟨9, by decide⟩
example : MatchSeqs (β := Nat) G0 (some spaces) ['a', ' ', 'a', 'b', 'a'] (.lit ['a']) .span 0
    (.ok [⟨0, 1⟩, ⟨2, 1⟩] 5) := ⟨20, by decide⟩

end Neure
