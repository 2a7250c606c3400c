import Verif.Peg
import Verif.PropsUnit
import Verif.PropsComb
/-!
# Lemmas for C58 (patterns are parsing expressions)
-/

namespace Neure

set_option linter.unusedSectionVars false
set_option linter.unusedSimpArgs false

section Ford
variable {ι : Type} {R : Nat → Peg ι}

/-- `Ford` as a function with fuel (only used in proofs). -/
def pegEv (R : Nat → Peg ι) : Nat → Peg ι → List ι → Option (Option (List ι))
  | 0, _, _ => none
  | _ + 1, .eps, x => some (some x)
  | _ + 1, .cls f, x => some (match x with | [] => none | a :: x => if f a then some x else none)
  | n + 1, .nt i, x => pegEv R n (R i) x
  | n + 1, .seq a b, x => match pegEv R n a x with
    | none => none | some none => some none | some (some y) => pegEv R n b y
  | n + 1, .alt a b, x => match pegEv R n a x with
    | none => none | some none => pegEv R n b x | some (some y) => some (some y)
  | n + 1, .star a, x => match pegEv R n a x with
    | none => none | some none => some (some x) | some (some y) => pegEv R n (.star a) y
  | n + 1, .not a, x => match pegEv R n a x with
    | none => none | some none => some (some x) | some (some _) => some none

theorem pegEv_succ {n : Nat} {e : Peg ι} {x r} (h : pegEv R n e x = some r) :
    pegEv R (n + 1) e x = some r := by
  induction n generalizing e x r with
  | zero => simp [pegEv] at h
  | succ n ih =>
    cases e with
    | eps => simpa [pegEv] using h
    | cls f => simpa [pegEv] using h
    | nt i => simp only [pegEv] at h; rw [pegEv]; exact ih h
    | seq a b =>
      simp only [pegEv] at h; rw [pegEv]
      cases ha : pegEv R n a x with
      | none => simp [ha] at h
      | some v => rw [ih ha]; cases v with
        | none => simpa [ha] using h
        | some y => simp only [ha] at h; exact ih h
    | alt a b =>
      simp only [pegEv] at h; rw [pegEv]
      cases ha : pegEv R n a x with
      | none => simp [ha] at h
      | some v => rw [ih ha]; cases v with
        | some y => simpa [ha] using h
        | none => simp only [ha] at h; exact ih h
    | star a =>
      simp only [pegEv] at h; rw [pegEv]
      cases ha : pegEv R n a x with
      | none => simp [ha] at h
      | some v => rw [ih ha]; cases v with
        | none => simpa [ha] using h
        | some y => simp only [ha] at h; exact ih h
    | not a =>
      simp only [pegEv] at h; rw [pegEv]
      cases ha : pegEv R n a x with
      | none => simp [ha] at h
      | some v => rw [ih ha]; cases v <;> simpa [ha] using h

theorem pegEv_mono {n m : Nat} (hm : n ≤ m) {e : Peg ι} {x r} (h : pegEv R n e x = some r) :
    pegEv R m e x = some r := by
  induction hm with
  | refl => exact h
  | step _ ih => exact pegEv_succ ih

theorem ford_of_ev {n : Nat} {e : Peg ι} {x r} (h : pegEv R n e x = some r) : Ford R e x r := by
  induction n generalizing e x r with
  | zero => simp [pegEv] at h
  | succ n ih =>
    cases e with
    | eps => simp [pegEv] at h; subst h; exact .eps
    | cls f =>
      simp only [pegEv, Option.some.injEq] at h; subst h
      cases x with
      | nil => exact .cls_end
      | cons a x =>
        simp only
        split
        · next h => exact .cls_ok h
        · next h => exact .cls_no (by simpa using h)
    | nt i => exact .nt (ih h)
    | seq a b =>
      simp only [pegEv] at h
      split at h
      · cases h
      · next h1 => cases h; exact .seq_fail (ih h1)
      · next h1 => exact .seq_ok (ih h1) (ih h)
    | alt a b =>
      simp only [pegEv] at h
      split at h
      · cases h
      · next h1 => exact .alt_2 (ih h1) (ih h)
      · next h1 => cases h; exact .alt_1 (ih h1)
    | star a =>
      simp only [pegEv] at h
      split at h
      · cases h
      · next h1 => cases h; exact .star_end (ih h1)
      · next h1 => exact .star_more (ih h1) (ih h)
    | not a =>
      simp only [pegEv] at h
      split at h
      · cases h
      · next h1 => cases h; exact .not_ok (ih h1)
      · next h1 => cases h; exact .not_fail (ih h1)

theorem ev_of_ford {e : Peg ι} {x r} (h : Ford R e x r) : ∃ n, pegEv R n e x = some r := by
  induction h with
  | eps => exact ⟨1, rfl⟩
  | cls_ok h => exact ⟨1, by simp [pegEv, h]⟩
  | cls_no h => exact ⟨1, by simp [pegEv, h]⟩
  | cls_end => exact ⟨1, rfl⟩
  | nt _ ih => obtain ⟨n, h⟩ := ih; exact ⟨n + 1, h⟩
  | seq_ok _ _ i1 i2 =>
    obtain ⟨n, h1⟩ := i1; obtain ⟨m, h2⟩ := i2
    refine ⟨max n m + 1, ?_⟩
    rw [pegEv, pegEv_mono (Nat.le_max_left _ _) h1]; exact pegEv_mono (Nat.le_max_right _ _) h2
  | seq_fail _ i1 => obtain ⟨n, h1⟩ := i1; exact ⟨n + 1, by rw [pegEv, h1]⟩
  | alt_1 _ i1 => obtain ⟨n, h1⟩ := i1; exact ⟨n + 1, by rw [pegEv, h1]⟩
  | alt_2 _ _ i1 i2 =>
    obtain ⟨n, h1⟩ := i1; obtain ⟨m, h2⟩ := i2
    refine ⟨max n m + 1, ?_⟩
    rw [pegEv, pegEv_mono (Nat.le_max_left _ _) h1]; exact pegEv_mono (Nat.le_max_right _ _) h2
  | star_end _ i1 => obtain ⟨n, h1⟩ := i1; exact ⟨n + 1, by rw [pegEv, h1]⟩
  | star_more _ _ i1 i2 =>
    obtain ⟨n, h1⟩ := i1; obtain ⟨m, h2⟩ := i2
    refine ⟨max n m + 1, ?_⟩
    rw [pegEv, pegEv_mono (Nat.le_max_left _ _) h1]; exact pegEv_mono (Nat.le_max_right _ _) h2
  | not_ok _ i1 => obtain ⟨n, h1⟩ := i1; exact ⟨n + 1, by rw [pegEv, h1]⟩
  | not_fail _ i1 => obtain ⟨n, h1⟩ := i1; exact ⟨n + 1, by rw [pegEv, h1]⟩

/-- A parsing expression has at most one result on an input. -/
theorem Ford.unique {e : Peg ι} {x r r'} (h : Ford R e x r) (h' : Ford R e x r') : r = r' := by
  obtain ⟨n, h⟩ := ev_of_ford h
  obtain ⟨m, h'⟩ := ev_of_ford h'
  have h := pegEv_mono (Nat.le_max_left n m) h
  have h' := pegEv_mono (Nat.le_max_right n m) h'
  rw [h] at h'; exact Option.some.inj h'

theorem ford_fail (x : List ι) : Ford R .fail x none := .not_fail .eps

theorem ford_star_cls (f : ι → Bool) (x : List ι) :
    Ford R (.star (.cls f)) x (some (x.dropWhile f)) := by
  induction x with
  | nil => exact .star_end .cls_end
  | cons a x ih =>
    rw [List.dropWhile_cons]
    split
    · next h => exact .star_more (.cls_ok h) ih
    · next h => exact .star_end (.cls_no (by simpa using h))

theorem ford_upto_ok {e : Peg ι} {n : Nat} {x r} (h : Ford R (Peg.upto e n) x r) : r ≠ none := by
  cases n with
  | zero => cases h; simp
  | succ n =>
    cases h with
    | alt_1 => simp
    | alt_2 _ h => cases h; simp

theorem ford_star_ok {e : Peg ι} {x r} (h : Ford R (.star e) x r) : r ≠ none := by
  generalize hE : Peg.star e = E at h
  induction h with
  | star_end => simp
  | star_more _ _ _ ih => exact ih hE
  | _ => cases hE

/-- One more repetition. -/
theorem ford_rep_more {e : Peg ι} {m : Nat} {n : Option Nat} {x y r} (hmn : ∀ k, n = some k → m ≤ k)
    (hn : n ≠ some 0) (h1 : Ford R e x (some y))
    (h2 : Ford R (.rep e (m - 1) (n.map (· - 1))) y r) : Ford R (.rep e m n) x r := by
  cases n with
  | none =>
    cases m with
    | zero => exact .star_more h1 h2
    | succ m => exact .seq_ok h1 h2
  | some k =>
    cases k with
    | zero => exact absurd rfl hn
    | succ k =>
      cases m with
      | zero =>
        cases r with
        | none => exact absurd rfl (ford_upto_ok h2)
        | some z => exact .alt_1 (.seq_ok h1 h2)
      | succ m =>
        simp only [Option.map_some, Nat.add_sub_cancel, Peg.rep] at h2
        simp only [Peg.rep, Nat.add_sub_add_right]
        exact .seq_ok h1 h2

theorem ford_rep_stop {e : Peg ι} {m : Nat} {n : Option Nat} {x}
    (hn : n ≠ some 0) (h1 : Ford R e x none) :
    Ford R (.rep e m n) x (if m = 0 then some x else none) := by
  cases m with
  | zero =>
    cases n with
    | none => exact .star_end h1
    | some k =>
      cases k with
      | zero => exact absurd rfl hn
      | succ k => exact .alt_2 (.seq_fail h1) .eps
  | succ m => cases n <;> exact .seq_fail h1

end Ford

variable {ι β : Type} [Item ι] {G : Rules ι β} {R : Nat → Peg ι}

/-- The result `res` of a run on `pre ++ x` at the position after `pre`,
in terms of what is left of `x`. -/
def Shape (pre x : List ι) (r : Option (List ι)) (res : Res Span) : Prop :=
  match r with
  | some y => ∃ t, x = t ++ y ∧ res = .ok ⟨blen pre, blen t⟩ (blen pre + blen t)
  | none => ∃ e, res = .err e (blen pre)

theorem Shape.ok {pre x : List ι} {r s o} (h : Shape pre x r (.ok s o)) :
    ∃ t y, x = t ++ y ∧ r = some y ∧ s = ⟨blen pre, blen t⟩ ∧ o = blen pre + blen t := by
  cases r with
  | none => obtain ⟨_, h⟩ := h; cases h
  | some y => obtain ⟨t, hx, h⟩ := h; cases h; exact ⟨t, y, hx, rfl, rfl, rfl⟩

theorem Shape.err {pre x : List ι} {r e o} (h : Shape pre x r (.err e o)) : r = none ∧ o = blen pre := by
  cases r with
  | none => obtain ⟨_, h⟩ := h; cases h; exact ⟨rfl, rfl⟩
  | some y => obtain ⟨t, hx, h⟩ := h; cases h

theorem Shape.panic {pre x : List ι} {r} (h : Shape pre x r .panic) : False := by
  cases r with
  | none => obtain ⟨_, h⟩ := h; cases h
  | some y => obtain ⟨t, hx, h⟩ := h; cases h

/-- Running `p` after `pre`, with `x` to come, leaves `r`. -/
def Got (G : Rules ι β) (p : Pat ι β) (pre x : List ι) (r : Option (List ι)) : Prop :=
  ∃ res, Parses G none (pre ++ x) p (blen pre) res ∧ Shape pre x r res

theorem adj (a b c : Nat) : (⟨a, b⟩ : Span).addAssign ⟨a + b, c⟩ = some ⟨a, b + c⟩ :=
  addAssign_eq.mpr ⟨by simp, by simp [Span.stop], rfl, by simp [Span.stop]; omega⟩

theorem parses_unique {d : List ι} {p : Pat ι β} {o r r'} (h : Parses G none d p o r)
    (h' : Parses G none d p o r') : r = r' := by
  rw [parses_iff] at h h'; rw [h] at h'; exact Option.some.inj h'

theorem matL_none' {d : List ι} {p : Pat ι β} {o : Nat} : matL G none d p o = parseL G none d p o := by
  have h := @runs_plain
  cases hm : matL G none d p o with
  | some r =>
    have := runs_iff.mpr hm
    rw [runs_plain, parses_iff] at this; exact this.symm
  | none =>
    cases hp : parseL G none d p o with
    | none => rfl
    | some r =>
      have := parses_iff.mpr hp
      rw [← runs_plain, runs_iff, hm] at this; cases this

/-! ### Leaves -/

/-- `p` reads as `e` and has no parts. -/
def LeafOk (G : Rules ι β) (R : Nat → Peg ι) (p : Pat ι β) (e : Peg ι) : Prop :=
  ∀ pre x, ∃ r, Ford R e x r ∧ Got G p pre x r

theorem pegLeaf_empty : LeafOk G R .empty .eps := fun _ x =>
  ⟨some x, .eps, _, parses_iff.mpr (parseL_empty G none _ _), [], rfl, by simp⟩

theorem pegLeaf_fail : LeafOk G R .fail .fail := fun _ x =>
  ⟨none, ford_fail x, _, parses_iff.mpr (parseL_fail G none _ _), _, rfl⟩

theorem pegLeaf_choice_nil (er : Error) : LeafOk G R (.choice er []) .fail := fun _ x =>
  ⟨none, ford_fail x, _, parses_iff.mpr (parseL_choice G none _ _ er []), er, rfl⟩

theorem blen_pos_cons (a : ι) (x : List ι) : 0 < blen (a :: x) := by
  have := Item.size_pos a
  simp only [blen, List.map_cons, List.sum_cons] at *; omega

theorem pegLeaf_anchorEnd : LeafOk G R .anchorEnd (.not .any) := fun pre x => by
  have h := parseL_anchorEnd G none (pre ++ x) (blen pre)
  cases x with
  | nil =>
    rw [if_pos (by simp)] at h
    exact ⟨some [], .not_ok .cls_end, _, parses_iff.mpr h, [], rfl, rfl⟩
  | cons a x =>
    have := blen_pos_cons a x
    rw [if_neg (by rw [blen_append]; omega)] at h
    exact ⟨none, .not_fail (.cls_ok rfl), _, parses_iff.mpr h, _, rfl⟩

theorem pegLeaf_consumeAll : LeafOk G R .consumeAll (.star .any) := fun pre x => by
  have h := parseL_consumeAll G none (pre ++ x) (blen pre)
  have hf := ford_star_cls (R := R) (fun _ => true) x
  have h0 : x.dropWhile (fun _ => true) = [] := by clear h hf; induction x <;> simp_all
  rw [h0] at hf
  refine ⟨some [], hf, _, parses_iff.mpr h, x, by simp, ?_⟩
  rw [blen_append, Nat.add_sub_cancel_left]

theorem pegLeaf_once (u : Neu ι) : LeafOk G R (.once u .empty) (.cls u.isMatch) := fun pre x => by
  have h := C23_once (G := G) (pol := none) (β := β) u .empty pre x rfl
  cases x with
  | nil =>
    refine ⟨none, .cls_end, _, (h.2 .once _).mpr ?_, _, rfl⟩
    simp
  | cons a x =>
    cases ha : u.isMatch a with
    | true =>
      refine ⟨some x, .cls_ok ha, _, (h.1 ⟨blen pre, Item.size a⟩ _).mpr
        ⟨a, x, rfl, itemGives_empty.mpr ha, rfl, rfl⟩, [a], rfl, ?_⟩
      simp [blen]
    | false =>
      refine ⟨none, .cls_no ha, _, (h.2 .once _).mpr
        ⟨rfl, .inr ⟨a, x, rfl, .inl ⟨itemGives_empty.mpr ha, rfl⟩⟩⟩, _, rfl⟩

theorem pegLeaf_many0 (u : Neu ι) : LeafOk G R (.many0 u .empty) (.star (.cls u.isMatch)) := fun pre x =>
  ⟨_, ford_star_cls _ x, _, (C23_many0_takeWhile u pre x rfl _).mpr rfl, x.takeWhile u.isMatch,
    List.takeWhile_append_dropWhile.symm, rfl⟩

theorem pegLeaf_many1 (u : Neu ι) : LeafOk G R (.many1 u .empty) (.plus (.cls u.isMatch)) := fun pre x => by
  have h := (C23_many1_takeWhile (β := β) (G := G) (pol := none) u pre x rfl _).mpr rfl
  cases x with
  | nil => exact ⟨none, .seq_fail .cls_end, _, h, _, rfl⟩
  | cons a x =>
    cases ha : u.isMatch a with
    | true =>
      rw [if_neg (by simp [List.takeWhile_cons, ha])] at h
      refine ⟨_, .seq_ok (.cls_ok ha) (ford_star_cls _ x), _, h, _, ?_, rfl⟩
      rw [List.takeWhile_cons, if_pos ha]
      simp [List.takeWhile_append_dropWhile]
    | false =>
      rw [if_pos (by simp [List.takeWhile_cons, ha])] at h
      exact ⟨none, .seq_fail (.cls_no ha), _, h, _, rfl⟩

theorem pegLeaf_optU (u : Neu ι) : LeafOk G R (.optU u .empty) (.opt (.cls u.isMatch)) := fun pre x => by
  have h := C23_opt_unit (G := G) (pol := none) (β := β) u .empty pre x rfl
  cases x with
  | nil =>
    exact ⟨some [], .alt_2 .cls_end .eps, _, (h.1 ⟨blen pre, 0⟩ _).mpr (.inr ⟨by simp, rfl, rfl⟩),
      [], rfl, rfl⟩
  | cons a x =>
    cases ha : u.isMatch a with
    | true =>
      refine ⟨some x, .alt_1 (.cls_ok ha), _, (h.1 ⟨blen pre, Item.size a⟩ _).mpr
        (.inl ⟨a, x, rfl, itemGives_empty.mpr ha, rfl, rfl⟩), [a], rfl, ?_⟩
      simp [blen]
    | false =>
      refine ⟨_, .alt_2 (.cls_no ha) .eps, _, (h.1 ⟨blen pre, 0⟩ _).mpr
        (.inr ⟨?_, rfl, rfl⟩), [], rfl, rfl⟩
      intro y tl hy; cases hy; exact itemGives_empty.mpr ha

theorem ford_lit_ok (l t : List ι) : Ford R (.lit l) (l ++ t) (some t) := by
  induction l with
  | nil => exact .eps
  | cons c l ih => exact .seq_ok (.cls_ok (by simp)) ih

theorem ford_lit_no (l x : List ι) (h : ¬ ∃ t, x = l ++ t) : Ford R (.lit l) x none := by
  induction l generalizing x with
  | nil => exact absurd ⟨x, rfl⟩ h
  | cons c l ih =>
    cases x with
    | nil => exact .seq_fail .cls_end
    | cons a x =>
      by_cases ha : a = c
      · subst ha
        refine .seq_ok (.cls_ok (by simp)) (ih x ?_)
        rintro ⟨t, rfl⟩; exact h ⟨t, rfl⟩
      · exact .seq_fail (.cls_no (by simp [ha]))

theorem pegLeaf_lit (l : List ι) : LeafOk G R (.lit l) (.lit l) := fun pre x => by
  by_cases h : ∃ t, x = l ++ t
  · obtain ⟨t, rfl⟩ := h
    exact ⟨_, ford_lit_ok l t, _, (C12_literal pre _ l rfl _).mpr (.inl ⟨⟨t, rfl⟩, rfl⟩), l, rfl, rfl⟩
  · exact ⟨_, ford_lit_no l x h, _, (C12_literal pre _ l rfl _).mpr (.inr ⟨h, rfl⟩), _, rfl⟩

/-- The repetitions of a class that a count allows. -/
def tkRun (hi : Option Nat) (l : List ι) : List ι :=
  match hi with | none => l | some n => l.take n

theorem ford_rep_cls (f : ι → Bool) (m : Nat) (hi : Option Nat) (hmn : ∀ k, hi = some k → m ≤ k)
    (x : List ι) :
    (m ≤ (tkRun hi (x.takeWhile f)).length → ∃ y, x = tkRun hi (x.takeWhile f) ++ y ∧
      Ford R (.rep (.cls f) m hi) x (some y)) ∧
    (¬ m ≤ (tkRun hi (x.takeWhile f)).length → Ford R (.rep (.cls f) m hi) x none) := by
  induction x generalizing m hi with
  | nil =>
    have h0 : tkRun hi (([] : List ι).takeWhile f) = [] := by cases hi <;> simp [tkRun]
    rw [h0]
    by_cases hz : hi = some 0
    · subst hz
      have := hmn 0 rfl
      have : m = 0 := by omega
      subst this
      exact ⟨fun _ => ⟨[], rfl, .eps⟩, by simp⟩
    · have := ford_rep_stop (R := R) (m := m) hz (.cls_end (f := f))
      constructor
      · intro hm; simp at hm; subst hm; exact ⟨[], rfl, by simpa using this⟩
      · intro hm; simp at hm; simpa [show ¬ m = 0 by omega] using this
  | cons a x ih =>
    by_cases hz : hi = some 0
    · subst hz
      have := hmn 0 rfl
      have : m = 0 := by omega
      subst this
      exact ⟨fun _ => ⟨a :: x, by simp [tkRun], .eps⟩, by simp [tkRun]⟩
    · cases ha : f a with
      | false =>
        have h0 : tkRun hi ((a :: x).takeWhile f) = [] := by cases hi <;> simp [tkRun, ha]
        rw [h0]
        have := ford_rep_stop (R := R) (m := m) hz (.cls_no (f := f) (x := x) ha)
        constructor
        · intro hm; simp at hm; subst hm; exact ⟨_, rfl, by simpa using this⟩
        · intro hm; simp at hm; simpa [show ¬ m = 0 by omega] using this
      | true =>
        have h0 : tkRun hi ((a :: x).takeWhile f) = a :: tkRun (hi.map (· - 1)) (x.takeWhile f) := by
          cases hi with
          | none => simp [tkRun, ha]
          | some n =>
            cases n with
            | zero => exact absurd rfl hz
            | succ n => simp [tkRun, ha]
        have hle : ∀ k, hi.map (· - 1) = some k → m - 1 ≤ k := by
          intro k hk
          cases hi with
          | none => cases hk
          | some j => have := hmn j rfl; simp at hk; omega
        obtain ⟨ih1, ih2⟩ := ih (m - 1) (hi.map (· - 1)) hle
        rw [h0]
        simp only [List.length_cons]
        constructor
        · intro hm
          obtain ⟨y, hy, hf⟩ := ih1 (by omega)
          exact ⟨y, by rw [List.cons_append, ← hy], ford_rep_more hmn hz (.cls_ok ha) hf⟩
        · intro hm
          exact ford_rep_more hmn hz (.cls_ok ha) (ih2 (by omega))

theorem pegLeaf_between (u : Neu ι) (m n : Nat) (hu : u.Fair) (hmn : m ≤ n) :
    LeafOk G R (.between m n u .empty) (.rep (.cls u.isMatch) m (some n)) := fun pre x => by
  have h := (C24_between_takeWhile (β := β) (G := G) (pol := none) m n u hu pre x rfl _).mpr rfl
  have hf := ford_rep_cls (R := R) u.isMatch m (some n) (by intro k hk; cases hk; exact hmn) x
  by_cases hm : m ≤ ((x.takeWhile u.isMatch).take n).length
  · rw [if_pos hm] at h
    obtain ⟨y, hy, hf⟩ := hf.1 hm
    exact ⟨some y, hf, _, h, _, hy, rfl⟩
  · rw [if_neg hm] at h
    exact ⟨none, hf.2 hm, _, h, _, rfl⟩

theorem pegLeaf_times (u : Neu ι) (r : CRange) (m : Nat) (n : Option Nat) (hu : u.Fair)
    (hc : Counts r m n) : LeafOk G R (.times r u .empty) (.rep (.cls u.isMatch) m n) := fun pre x => by
  have hv : Valid (pre ++ x) (blen pre) := ⟨pre, x, rfl, rfl⟩
  have h := C24_times (β := β) (G := G) (pol := none) r u hu .empty (blen pre) hv
  have hf := ford_rep_cls (R := R) u.isMatch m n hc.1 x
  have hg := greedy_takeWhile (β := β) (G := G) (pol := none) u pre x rfl n
  -- the allowed counts from above
  have hup : ∀ k, (∀ j, n = some j → k ≤ j) ↔ r.hi.allowsUpTo k := by
    intro k
    have h0 := ((hc.2 m).mpr ⟨Nat.le_refl _, hc.1⟩)
    have hlo : ∀ j, m ≤ j → r.lo.allowsFrom j := by
      intro j hj
      have h0 := h0.1
      revert h0; cases r.lo <;> simp only [Bound.allowsFrom, forall_const] <;> omega
    constructor
    · intro hk
      refine Bound.allowsUpTo_mono (Nat.le_max_right m k) ((hc.2 _).mpr ⟨Nat.le_max_left _ _, ?_⟩).2
      intro j hj
      have := hk j hj; have := hc.1 j hj; omega
    · intro hk j hj
      by_cases hmk : m ≤ k
      · exact ((hc.2 k).mp ⟨hlo k hmk, hk⟩).2 j hj
      · have := hc.1 j hj; omega
  have hg := (greedy_congr (Q := r.hi.allowsUpTo) (fun k => hup (k + 1))).mp hg
  have hlen : r.hi.allowsUpTo (tkRun n (x.takeWhile u.isMatch)).length := by
    rw [← hup]
    intro j hj; subst hj; simp [tkRun]; omega
  have hg' : ∃ rest, GreedyRun (β := β) G none (pre ++ x) (blen pre) u .empty r.hi.allowsUpTo
      (tkRun n (x.takeWhile u.isMatch)) rest := by
    cases n <;> exact ⟨_, hg⟩
  obtain ⟨rest, hg⟩ := hg'
  by_cases hm : m ≤ (tkRun n (x.takeWhile u.isMatch)).length
  · obtain ⟨y, hy, hf⟩ := hf.1 hm
    have hin := (hc.2 _).mpr ⟨hm, (hup _).mpr hlen⟩
    exact ⟨some y, hf, _, (h.1 _ _).mpr ⟨_, _, hg, hin.1, hin.2, rfl, rfl⟩, _, hy, rfl⟩
  · refine ⟨none, hf.2 hm, _, h.2.1 _ _ hg (fun hh => hm ((hc.2 _).mp hh).1), _, rfl⟩

/-- Soundness at one position. -/
def SoundAt (R : Nat → Peg ι) (e : Peg ι) (pre x : List ι) (res : Res Span) : Prop :=
  ∃ r, Ford R e x r ∧ Shape pre x r res

theorem LeafOk.sound {p : Pat ι β} {e : Peg ι} (h : LeafOk G R p e) {n : Nat} {pre x res}
    (hp : parse G n none (pre ++ x) p (blen pre) = some res) : SoundAt R e pre x res := by
  obtain ⟨r, hf, res', h1, h2⟩ := h pre x
  rw [parses_unique h1 ⟨n, hp⟩] at h2
  exact ⟨r, hf, h2⟩

theorem SoundAt.ok {e : Peg ι} {pre x : List ι} {s o} (h : SoundAt R e pre x (.ok s o)) :
    ∃ t y, x = t ++ y ∧ Ford R e x (some y) ∧ s = ⟨blen pre, blen t⟩ ∧ o = blen pre + blen t := by
  obtain ⟨r, hf, h⟩ := h
  obtain ⟨t, y, hx, rfl, hs, ho⟩ := h.ok
  exact ⟨t, y, hx, hf, hs, ho⟩

theorem SoundAt.err {e : Peg ι} {pre x : List ι} {er o} (h : SoundAt R e pre x (.err er o)) :
    Ford R e x none ∧ o = blen pre := by
  obtain ⟨r, hf, h⟩ := h
  obtain ⟨rfl, ho⟩ := h.err
  exact ⟨hf, ho⟩

theorem SoundAt.panic {e : Peg ι} {pre x : List ι} (h : SoundAt R e pre x .panic) : False := by
  obtain ⟨r, _, h⟩ := h; exact h.panic

end Neure
