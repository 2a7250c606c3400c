import Verif.PegLemmas
/-!
# Lemmas for C58: units with a condition
-/

namespace Neure

set_option linter.unusedSectionVars false
set_option linter.unusedSimpArgs false

section Ford
variable {ι : Type} {R : Nat → Peg ι}

theorem ford_left {e : Peg ι} {x y} (h : Ford R e x (some y)) : ∃ t, x = t ++ y := by
  generalize hr : some y = r at h
  induction h generalizing y with
  | eps => cases hr; exact ⟨[], rfl⟩
  | cls_ok => cases hr; exact ⟨[_], rfl⟩
  | nt _ ih => exact ih hr
  | seq_ok _ _ i1 i2 => obtain ⟨t, rfl⟩ := i1 rfl; obtain ⟨t', rfl⟩ := i2 hr; exact ⟨t ++ t', by simp⟩
  | alt_1 _ ih => exact ih hr
  | alt_2 _ _ _ ih => exact ih hr
  | star_end => cases hr; exact ⟨[], rfl⟩
  | star_more _ _ i1 i2 => obtain ⟨t, rfl⟩ := i1 rfl; obtain ⟨t', rfl⟩ := i2 hr; exact ⟨t ++ t', by simp⟩
  | not_ok => cases hr; exact ⟨[], rfl⟩
  | _ => cases hr

theorem ford_le {e : Peg ι} {x y} (h : Ford R e x (some y)) : y.length ≤ x.length := by
  obtain ⟨t, rfl⟩ := ford_left h; simp

theorem ford_moves {e : Peg ι} (he : e.moves = true) {x y} (h : Ford R e x (some y)) :
    y.length < x.length := by
  induction e generalizing x y with
  | cls f => cases h; simp
  | seq a b iha ihb =>
    cases h with
    | seq_ok h1 h2 =>
      have l1 := ford_le h1
      have l2 := ford_le h2
      simp only [Peg.moves, Bool.or_eq_true] at he
      rcases he with he | he
      · have := iha he h1; omega
      · have := ihb he h2; omega
  | alt a b iha ihb =>
    simp only [Peg.moves, Bool.and_eq_true] at he
    cases h with
    | alt_1 h => exact iha he.1 h
    | alt_2 _ h => exact ihb he.2 h
  | _ => simp [Peg.moves] at he

theorem ford_halts {e : Peg ι} (he : e.halts = true) (x : List ι) : ∃ r, Ford R e x r := by
  induction e generalizing x with
  | eps => exact ⟨_, .eps⟩
  | cls f =>
    cases x with
    | nil => exact ⟨_, .cls_end⟩
    | cons a x =>
      cases ha : f a with
      | true => exact ⟨_, .cls_ok ha⟩
      | false => exact ⟨_, .cls_no ha⟩
  | nt i => simp [Peg.halts] at he
  | seq a b iha ihb =>
    simp only [Peg.halts, Bool.and_eq_true] at he
    obtain ⟨r, h⟩ := iha he.1 x
    cases r with
    | none => exact ⟨_, .seq_fail h⟩
    | some y => obtain ⟨r, h'⟩ := ihb he.2 y; exact ⟨_, .seq_ok h h'⟩
  | alt a b iha ihb =>
    simp only [Peg.halts, Bool.and_eq_true] at he
    obtain ⟨r, h⟩ := iha he.1 x
    cases r with
    | none => obtain ⟨r, h'⟩ := ihb he.2 x; exact ⟨_, .alt_2 h h'⟩
    | some y => exact ⟨_, .alt_1 h⟩
  | star a iha =>
    simp only [Peg.halts, Bool.and_eq_true] at he
    generalize hn : x.length = n
    induction n using Nat.strongRecOn generalizing x with
    | _ n ih =>
      obtain ⟨r, h⟩ := iha he.1 x
      cases r with
      | none => exact ⟨_, .star_end h⟩
      | some y =>
        have := ford_moves he.2 h
        obtain ⟨r, h'⟩ := ih y.length (by omega) y rfl
        exact ⟨_, .star_more h h'⟩
  | not a iha =>
    simp only [Peg.halts] at he
    obtain ⟨r, h⟩ := iha he x
    cases r with
    | none => exact ⟨_, .not_ok h⟩
    | some y => exact ⟨_, .not_fail h⟩

/-- A repetition of something that halts and moves halts. -/
theorem ford_rep_halts {g : Peg ι} (hg : ∀ x, ∃ r, Ford R g x r)
    (hm : ∀ x y, Ford R g x (some y) → y.length < x.length) (m : Nat) (hi : Option Nat)
    (hmn : ∀ k, hi = some k → m ≤ k) (x : List ι) :
    ∃ r, Ford R (.rep g m hi) x r := by
  generalize hn : x.length = n
  induction n using Nat.strongRecOn generalizing x m hi with
  | _ n ih =>
    by_cases hz : hi = some 0
    · subst hz
      have : m = 0 := by have := hmn 0 rfl; omega
      subst this
      exact ⟨_, .eps⟩
    · obtain ⟨r, h⟩ := hg x
      cases r with
      | none => exact ⟨_, ford_rep_stop hz h⟩
      | some y =>
        have := hm _ _ h
        obtain ⟨r, h'⟩ := ih y.length (by omega) (m - 1) (hi.map (· - 1)) (by
          intro k hk
          cases hi with
          | none => cases hk
          | some j => have := hmn j rfl; simp at hk; omega) y rfl
        exact ⟨_, ford_rep_more hmn hz h h'⟩

/-- What a guarded item does. -/
theorem guard_ok {f : ι → Bool} {e : Peg ι} {x y} (h : Ford R (.guard f e) x (some y)) :
    ∃ a, x = a :: y ∧ f a = true := by
  cases h with
  | seq_ok h1 h2 =>
    cases h1
    cases h2 with
    | seq_ok h3 h4 =>
      cases h3
      cases h4 with
      | cls_ok h => exact ⟨_, rfl, h⟩

theorem guard_nil {f : ι → Bool} {e : Peg ι} : Ford R (.guard f e) [] none :=
  .seq_fail (.not_fail (.not_ok .cls_end))

theorem guard_no {f : ι → Bool} {e : Peg ι} {a : ι} {x : List ι} (h : f a = false) :
    Ford R (.guard f e) (a :: x) none :=
  .seq_fail (.not_fail (.not_ok (.cls_no h)))

theorem guard_cond {f : ι → Bool} {e : Peg ι} {a : ι} {x : List ι} {r} (h : f a = true)
    (he : Ford R e (a :: x) r) : Ford R (.guard f e) (a :: x) (if r.isSome then some x else none) := by
  refine .seq_ok (.not_ok (.not_fail (.cls_ok h))) ?_
  cases r with
  | none => exact .seq_fail (.not_fail (.not_ok he))
  | some y => exact .seq_ok (.not_ok (.not_fail he)) (.cls_ok h)

theorem guard_halts {f : ι → Bool} {e : Peg ι} (he : e.halts = true) (x : List ι) :
    ∃ r, Ford R (.guard f e) x r := by
  cases x with
  | nil => exact ⟨_, guard_nil⟩
  | cons a x =>
    cases ha : f a with
    | false => exact ⟨_, guard_no ha⟩
    | true => obtain ⟨r, h⟩ := ford_halts (R := R) he (a :: x); exact ⟨_, guard_cond ha h⟩

end Ford

variable {ι β : Type} [Item ι] {G : Rules ι β} {R : Nat → Peg ι}

/-- `m` repetitions of something that needs `L` bytes need `m * L` bytes. -/
theorem rep_needs {g : Peg ι} {L : Nat} (hg : ∀ x y, Ford R g x (some y) → blen y + L ≤ blen x) {m : Nat} {hi : Option Nat}
    {x y : List ι} (h : Ford R (.rep g m hi) x (some y)) : m * L ≤ blen x := by
  have key : ∀ w : Peg ι, ∀ m x y, Ford R (Peg.times g w m) x (some y) → m * L ≤ blen x := by
    intro w m
    induction m with
    | zero => intro x y _; simp
    | succ m ih =>
      intro x y h
      cases h with
      | seq_ok h1 h2 =>
        have h3 := hg _ _ h1
        have h4 := ih _ _ h2
        rw [Nat.succ_mul]; omega
  cases hi <;> exact key _ _ _ _ h

theorem guard_needs {u : Neu ι} (hu : u.Fair) {e : Peg ι} {x y : List ι}
    (h : Ford R (.guard u.isMatch e) x (some y)) : blen y + u.minLength ≤ blen x := by
  obtain ⟨a, rfl, ha⟩ := guard_ok h
  have := hu a ha
  simp only [blen_cons]; omega

/-- When fewer bytes are left than are needed, the repetition fails. -/
theorem rep_short {u : Neu ι} (hu : u.Fair) {e : Peg ι} {m : Nat} {hi : Option Nat}
    (hmn : ∀ k, hi = some k → m ≤ k) (hh : m ≤ 1 ∨ e.halts = true) {x : List ι}
    (hs : blen x < m * u.minLength) : Ford R (.rep (.guard u.isMatch e) m hi) x none := by
  have hr : ∃ r, Ford R (.rep (.guard u.isMatch e) m hi) x r := by
    rcases hh with hm | he
    · have hm1 : m = 1 := by
        cases m with
        | zero => simp at hs
        | succ m => omega
      subst hm1
      have hz : hi ≠ some 0 := fun h => by have := hmn 0 h; omega
      have : Ford R (.guard u.isMatch e) x none := by
        cases x with
        | nil => exact guard_nil
        | cons a x =>
          refine guard_no ?_
          cases ha : u.isMatch a with
          | false => rfl
          | true => have := hu a ha; simp only [blen_cons] at hs; omega
      exact ⟨_, ford_rep_stop hz this⟩
    · exact ford_rep_halts (guard_halts he) (fun x y h => by
        obtain ⟨a, rfl, _⟩ := guard_ok h; simp) m hi hmn x
  obtain ⟨r, h⟩ := hr
  cases r with
  | none => exact h
  | some y => have := rep_needs (fun _ _ => guard_needs hu) h; omega

/-- The outcome `r` of testing an item of `x` says what `g` does there. -/
def TestOk (R : Nat → Peg ι) (test : Nat × ι → Option (Out Bool)) (g : Peg ι) (i : Nat) (x : List ι) : Prop :=
  ∀ t a y, x = t ++ a :: y → ∀ r, test (i + blen t, a) = some r →
    ∃ b, r = .ok b ∧ Ford R g (a :: y) (if b then some y else none)

theorem TestOk.tail {test : Nat × ι → Option (Out Bool)} {g : Peg ι} {i : Nat} {a : ι} {x : List ι}
    (h : TestOk R test g i (a :: x)) : TestOk R test g (i + Item.size a) x := by
  intro t b y hx r hr
  exact h (a :: t) b y (by rw [hx]; rfl) r (by rw [blen_cons, ← Nat.add_assoc]; exact hr)

/-- `LoopIs` for the loop condition alone. -/
def MoreIs (more : Nat → Bool) (hi : Option Nat) : Prop :=
  ∀ k, more k = true ↔ ∀ n', hi = some n' → k < n'

/-- The scan at count `c`. -/
theorem test_scan {test : Nat × ι → Option (Out Bool)} {more : Nat → Bool} {g : Peg ι} {m : Nat} {hi : Option Nat}
    (hl : MoreIs more hi) (hmn : ∀ k, hi = some k → m ≤ k) (hnil : Ford R g [] none) {c : Nat} (hc : ∀ h, hi = some h → c ≤ h)
    {beg : Option Nat} {i : Nat} {x : List ι} (ht : TestOk R test g i x) {out : Out (Scan ι)}
    (h : scan test more c beg (indices i x) = some out) :
    ∃ s run rest, out = .ok s ∧ ScanPost test more c beg i x s run rest ∧
      (∀ k, hi = some k → s.cnt ≤ k) ∧
      Ford R (.rep g (m - c) (hi.map (· - c))) x (if m ≤ s.cnt then some rest else none) := by
  have hmn' : ∀ c, (∀ h, hi = some h → c ≤ h) → ∀ k, hi.map (· - c) = some k → m - c ≤ k := by
    intro c hc k hk
    cases hi with
    | none => cases hk
    | some j => have := hmn j rfl; simp at hk; omega
  induction x generalizing c beg i with
  | nil =>
    simp only [indices_nil, scan, Option.some.injEq] at h
    subst h
    obtain ⟨run, rest, hp⟩ := scan_ok (test := test) (more := more) (cnt := c) (beg := beg) (i := i) (l := [])
      (s := ⟨c, beg, none, []⟩) (by simp only [indices_nil, scan])
    refine ⟨_, run, rest, rfl, hp, hc, ?_⟩
    have hs := hp.split
    have : rest = [] := by
      cases rest with
      | nil => rfl
      | cons a l => simp at hs
    subst this
    by_cases hz : hi.map (· - c) = some 0
    · have := hmn' c hc 0 hz
      rw [hz, show m - c = 0 by omega, if_pos (by simp only; omega)]
      exact .eps
    · have := ford_rep_stop (m := m - c) hz hnil
      by_cases hm : m ≤ c
      · rw [if_pos hm]; rw [if_pos (by omega)] at this; exact this
      · rw [if_neg hm]; rw [if_neg (by omega)] at this; exact this
  | cons a x ih =>
    have h0 := h
    simp only [indices_cons, scan] at h
    split at h
    · next hm =>
      have hm := (hl c).mp hm
      have hne : hi.map (· - c) ≠ some 0 := by
        cases hi with
        | none => simp
        | some k => have := hm k rfl; simp; omega
      have htest := ht [] a x rfl
      simp only [blen_nil, Nat.add_zero] at htest
      split at h
      · cases h
      · next hr => obtain ⟨b, hb, _⟩ := htest _ hr; cases hb
      · next hr => obtain ⟨b, hb, _⟩ := htest _ hr; cases hb
      · next hr =>
        obtain ⟨b, hb, hf⟩ := htest _ hr
        cases hb
        obtain ⟨s, run, rest, rfl, hp, hcs, hfr⟩ := ih (c := c + 1) (fun k hk => by have := hm k hk; omega) ht.tail h
        obtain ⟨run', rest', hp'⟩ := scan_ok h0
        have hcnt : run'.length = run.length + 1 := by
          have h1 := hp.cnt_eq; have h2 := hp'.cnt_eq; omega
        have hrest : rest' = rest := by
          have h1 := hp.split; have h2 := hp'.split
          have : (a :: run) ++ rest = run' ++ rest' := by rw [← h2, List.cons_append, ← h1]
          exact (List.append_inj this (by simp [hcnt])).2.symm
        subst hrest
        refine ⟨s, run', rest', rfl, hp', hcs, ?_⟩
        refine ford_rep_more (hmn' c hc) hne (y := x) (by simpa using hf) ?_
        rw [show m - c - 1 = m - (c + 1) by omega, Option.map_map]
        exact hfr
      · next hr =>
        obtain ⟨b, hb, hf⟩ := htest _ hr
        cases hb
        simp only [Option.some.injEq] at h
        subst h
        obtain ⟨run, rest, hp⟩ := scan_ok h0
        have hrun : run = [] := by
          have := hp.cnt_eq
          exact List.length_eq_zero_iff.mp (by simp only at this; omega)
        subst hrun
        have hsp := hp.split
        simp only [List.nil_append] at hsp
        subst hsp
        refine ⟨_, [], a :: x, rfl, hp, hc, ?_⟩
        have := ford_rep_stop (m := m - c) hne (by simpa using hf)
        by_cases hm : m ≤ c
        · rw [if_pos hm]; rw [if_pos (by omega)] at this; exact this
        · rw [if_neg hm]; rw [if_neg (by omega)] at this; exact this
    · next hm =>
      simp only [Option.some.injEq] at h
      subst h
      obtain ⟨run, rest, hp⟩ := scan_ok h0
      have hrun : run = [] := by
        have := hp.cnt_eq
        exact List.length_eq_zero_iff.mp (by simp only at this; omega)
      subst hrun
      have hsp := hp.split
      simp only [List.nil_append] at hsp
      subst hsp
      refine ⟨_, [], a :: x, rfl, hp, hc, ?_⟩
      have : ∃ k, hi = some k ∧ k = c := by
        cases hi with
        | none => exact absurd ((hl c).mpr (by simp)) hm
        | some k =>
          refine ⟨k, rfl, ?_⟩
          have h1 := hc k rfl
          have h2 : ¬ c < k := fun hlt => hm ((hl c).mpr (by simpa using hlt))
          omega
      obtain ⟨k, rfl, rfl⟩ := this
      have := hmn k rfl
      rw [if_pos this, show m - k = 0 by omega]
      simp only [Option.map_some, Nat.sub_self]
      exact .eps

/-- The scan at the start. -/
theorem test_scan0 {test : Nat × ι → Option (Out Bool)} {more : Nat → Bool} {g : Peg ι} {m : Nat} {hi : Option Nat}
    (hl : MoreIs more hi) (hmn : ∀ k, hi = some k → m ≤ k) (hnil : Ford R g [] none)
    {x : List ι} (ht : TestOk R test g 0 x) {out : Out (Scan ι)}
    (h : scan test more 0 none (indices 0 x) = some out) :
    ∃ s run rest, out = .ok s ∧ ScanPost test more 0 none 0 x s run rest ∧
      (∀ k, hi = some k → s.cnt ≤ k) ∧
      Ford R (.rep g m hi) x (if m ≤ s.cnt then some rest else none) := by
  obtain ⟨s, run, rest, h1, h2, h3, h4⟩ := test_scan hl hmn hnil (c := 0) (by simp) ht h
  have h0 : hi.map (· - 0) = hi := by cases hi <;> simp
  rw [h0] at h4
  exact ⟨s, run, rest, h1, h2, h3, h4⟩

section Units
variable {mt : List ι → Pat ι β → Nat → Option (Res Span)} {u v : Neu ι} {c : Cond ι β} {g g' : Peg ι}
  {pre x : List ι} {res : Res Span}

theorem drop_here (pre x : List ι) : dropB (pre ++ x) (blen pre) = some x := dropB_append _ _

theorem unit_span (pre x : List ι) {run rest : List ι} (hx : x = run ++ rest) {l : Option Nat} (hl : l = some (blen run)) {res : Res Span}
    (h : spanK (blen pre) l = some res) : Shape pre x (some rest) res := by
  subst hl
  simp only [spanK, newSpanInc, Option.some.injEq] at h
  exact ⟨run, hx, h.symm⟩

theorem sound_many0U (hnil : Ford R g [] none) (ht : TestOk R (testItem mt (pre ++ x) (blen pre) u c) g 0 x)
    (h : many0Parse mt (pre ++ x) u c (blen pre) = some res) : SoundAt R (.star g) pre x res := by
  simp only [many0Parse, remK_eq (drop_here pre x), peek_eq (drop_here pre x), caseO_some, reduceCtorEq,
    false_and, exists_false, or_false, false_or, Option.some.injEq, Out.ok.injEq, exists_eq_left'] at h
  rcases h with ⟨h, _⟩ | ⟨s, h, h2⟩ | ⟨e, h, _⟩ <;>
    obtain ⟨s', run, rest, hs, hp, _, hf⟩ := test_scan0 (m := 0) (hi := none) (by simp [MoreIs]) (by simp) hnil ht h
  · cases hs
  · cases hs
    rw [if_pos (Nat.zero_le _)] at hf
    refine ⟨_, hf, ?_⟩
    split at h2
    · next hb =>
      have hr := hp.beg_eq
      rw [hb] at hr
      have : run = [] := by
        by_cases hr' : run = []
        · exact hr'
        · simp [hr'] at hr
      subst this
      simp only [Option.some.injEq] at h2
      exact ⟨[], hp.split, by simpa using h2.symm⟩
    · next hb => exact unit_span pre x hp.split (calcLength_scan' hp hb) h2
  · cases hs

theorem sound_many1U (hnil : Ford R g [] none) (ht : TestOk R (testItem mt (pre ++ x) (blen pre) u c) g 0 x)
    (h : many1Parse mt (pre ++ x) u c (blen pre) = some res) : SoundAt R (.plus g) pre x res := by
  simp only [many1Parse, remK_eq (drop_here pre x), peek_eq (drop_here pre x), caseO_some, reduceCtorEq,
    false_and, exists_false, or_false, false_or, Option.some.injEq, Out.ok.injEq, exists_eq_left'] at h
  rcases h with ⟨h, _⟩ | ⟨s, h, h2⟩ | ⟨e, h, _⟩ <;>
    obtain ⟨s', run, rest, hs, hp, _, hf⟩ := test_scan0 (m := 1) (hi := none) (by simp [MoreIs]) (by simp) hnil ht h
  · cases hs
  · cases hs
    have hc := hp.cnt_eq
    have hr := hp.beg_eq
    split at h2
    · next hb =>
      rw [hb] at hr
      have : run = [] := by
        by_cases hr' : run = []
        · exact hr'
        · simp [hr'] at hr
      subst this
      simp only [Option.some.injEq] at h2
      rw [if_neg (by rw [hc]; simp)] at hf
      exact ⟨_, hf, _, h2.symm⟩
    · next hb =>
      rw [hb] at hr
      have : run.length ≠ 0 := by
        intro h0
        rw [List.length_eq_zero_iff.mp h0] at hr
        simp at hr
      rw [if_pos (by omega)] at hf
      exact ⟨_, hf, unit_span pre x hp.split (calcLength_scan' hp hb) h2⟩
  · cases hs

/-- One item. -/
theorem item_span {a : ι} {y : List ι} {res : Res Span}
    (h : spanK (blen pre) (calcLength (some 0) ((indices (Item.size a) y).head?.map (·.1)) (blen (a :: y))) = some res) :
    Shape pre (a :: y) (some y) res := by
  have h1 := calcLength_run (i := 0) (run := [a]) (rest := y) (by simp)
  rw [indices_head] at h
  simp only [blen_cons, blen_nil, Nat.add_zero, Nat.zero_add, List.singleton_append] at h1 h
  refine unit_span pre (a :: y) (run := [a]) rfl ?_ h
  simpa using h1

theorem sound_onceU (hnil : Ford R g [] none) (ht : TestOk R (testItem mt (pre ++ x) (blen pre) u c) g 0 x)
    (h : onceParse mt (pre ++ x) u c (blen pre) = some res) : SoundAt R g pre x res := by
  simp only [onceParse, remK_eq (drop_here pre x), peek_eq (drop_here pre x), caseO_some, reduceCtorEq,
    false_and, exists_false, or_false, false_or, Option.some.injEq, Out.ok.injEq, exists_eq_left'] at h
  cases x with
  | nil =>
    simp only [indices_nil, Option.some.injEq] at h
    exact ⟨_, hnil, _, h.symm⟩
  | cons a y =>
    simp only [indices_cons, caseO_some, Nat.zero_add] at h
    have ht := ht [] a y rfl
    simp only [blen_nil, Nat.add_zero] at ht
    rcases h with ⟨h, _⟩ | ⟨b, h, h2⟩ | ⟨e, h, _⟩ <;> obtain ⟨b', hb, hf⟩ := ht _ h <;> cases hb
    cases b with
    | true => exact ⟨_, hf, item_span (by simpa using h2)⟩
    | false =>
      simp only [Bool.false_eq_true, if_false, Option.some.injEq] at h2
      exact ⟨_, hf, _, h2.symm⟩

theorem sound_optUU (hnil : Ford R g [] none) (ht : TestOk R (testItem mt (pre ++ x) (blen pre) u c) g 0 x)
    (h : optUParse mt (pre ++ x) u c (blen pre) = some res) : SoundAt R (.opt g) pre x res := by
  simp only [optUParse, remK_eq (drop_here pre x), peek_eq (drop_here pre x), caseO_some, reduceCtorEq,
    false_and, exists_false, or_false, false_or, Option.some.injEq, Out.ok.injEq, exists_eq_left'] at h
  cases x with
  | nil =>
    simp only [indices_nil, Option.some.injEq] at h
    exact ⟨_, .alt_2 hnil .eps, [], rfl, by simpa using h.symm⟩
  | cons a y =>
    simp only [indices_cons, caseO_some, Nat.zero_add] at h
    have ht := ht [] a y rfl
    simp only [blen_nil, Nat.add_zero] at ht
    rcases h with ⟨h, _⟩ | ⟨b, h, h2⟩ | ⟨e, h, _⟩ <;> obtain ⟨b', hb, hf⟩ := ht _ h <;> cases hb
    cases b with
    | true => exact ⟨_, .alt_1 hf, item_span (by simpa using h2)⟩
    | false =>
      simp only [Bool.false_eq_true, if_false, Option.some.injEq] at h2
      exact ⟨_, .alt_2 hf .eps, [], rfl, by simpa using h2.symm⟩

/-- The counted loops, once the length test is passed. -/
theorem sound_count {more ok : Nat → Bool} {m : Nat} {hi : Option Nat} {er : Error} (hl : MoreIs more hi)
    (hok : ∀ k, (∀ n', hi = some n' → k ≤ n') → (ok k = true ↔ m ≤ k))
    (hmn : ∀ k, hi = some k → m ≤ k) (hnil : Ford R g [] none)
    (ht : TestOk R (testItem mt (pre ++ x) (blen pre) u c) g 0 x)
    (h : caseO (scan (testItem mt (pre ++ x) (blen pre) u c) more 0 none (indices 0 x))
      (fun s => if ok s.cnt = true then
        spanK (blen pre) (calcLength s.beg (s.stop.or (s.rest.head?.map (·.1))) (blen x))
        else some (.err er (blen pre)))
      (fun e => some (.err e (blen pre))) = some res) : SoundAt R (.rep g m hi) pre x res := by
  rw [caseO_some] at h
  rcases h with ⟨h, _⟩ | ⟨s, h, h2⟩ | ⟨e, h, _⟩ <;>
    obtain ⟨s', run, rest, hs, hp, hle, hf⟩ := test_scan0 (m := m) hl hmn hnil ht h <;> cases hs
  have hm := hok s.cnt hle
  split at h2
  · next hc =>
    rw [if_pos (hm.mp hc)] at hf
    exact ⟨_, hf, unit_span pre x hp.split (calcLength_scan hp) h2⟩
  · next hc =>
    rw [if_neg (fun h => hc (hm.mpr h))] at hf
    simp only [Option.some.injEq] at h2
    exact ⟨_, hf, _, h2.symm⟩

theorem sound_betweenU {m n : Nat} {e : Peg ι} (hu : u.Fair) (hmn : m ≤ n) (hh : m ≤ 1 ∨ e.halts = true)
    (ht : TestOk R (testItem mt (pre ++ x) (blen pre) u c) (.guard u.isMatch e) 0 x)
    (h : betweenParse mt (pre ++ x) m n u c (blen pre) = some res) :
    SoundAt R (.rep (.guard u.isMatch e) m (some n)) pre x res := by
  simp only [betweenParse, remK_eq (drop_here pre x), peek_eq (drop_here pre x)] at h
  simp only [caseO] at h
  have hmn' : ∀ k, some n = some k → m ≤ k := by rintro k ⟨⟩; exact hmn
  split at h
  · refine sound_count (more := fun cnt => decide (cnt < n)) (ok := fun k => decide (m ≤ k)) (er := .between)
      (by simp [MoreIs]) (by simp) hmn' guard_nil ht ?_
    simpa only [decide_eq_true_eq, ge_iff_le, caseO] using h
  · next hs =>
    simp only [Option.some.injEq] at h
    exact ⟨none, rep_short hu hmn' hh (by omega), _, h.symm⟩

theorem moreIs_counts {r : CRange} {m : Nat} {n : Option Nat} (h : Counts r m n) : MoreIs r.more n ∧
    (∀ k, r.contains k = true ↔ m ≤ k ∧ ∀ n', n = some n' → k ≤ n') := by
  refine ⟨fun k => ?_, fun k => ?_⟩
  · rw [Neure.more_iff]
    have hlo : ∀ j, m ≤ j → r.lo.allowsFrom j := by
      intro j hj
      have h0 := ((h.2 m).mpr ⟨Nat.le_refl _, h.1⟩).1
      revert h0; cases r.lo <;> simp only [Bound.allowsFrom, forall_const] <;> omega
    constructor
    · intro hk n' hn
      refine Nat.lt_of_not_le fun hle => ?_
      have := (h.2 (k + 1)).mp ⟨hlo _ (by have := h.1 n' hn; omega), hk⟩
      have := this.2 n' hn; omega
    · intro hk
      have : r.hi.allowsUpTo (max m (k + 1)) :=
        ((h.2 _).mpr ⟨Nat.le_max_left _ _, fun n' hn => by
          have := hk n' hn; have := h.1 n' hn; omega⟩).2
      exact Bound.allowsUpTo_mono (Nat.le_max_right _ _) this
  · rw [Neure.contains_iff]; exact h.2 k

theorem needed_le {r : CRange} {m : Nat} {n : Option Nat} (h : Counts r m n) (L : Nat) : r.needed L ≤ m * L := by
  have h0 := ((h.2 m).mpr ⟨Nat.le_refl _, h.1⟩).1
  unfold CRange.needed
  unfold Bound.allowsFrom at h0
  split
  · next hm => rw [hm] at h0; exact Nat.mul_le_mul_right _ h0
  · next hm => rw [hm] at h0; exact Nat.mul_le_mul_right _ (by simp at h0; omega)
  · omega

theorem sound_timesU {r : CRange} {m : Nat} {n : Option Nat} {e : Peg ι} (hu : u.Fair) (hc : Counts r m n)
    (hh : m ≤ 1 ∨ e.halts = true)
    (ht : TestOk R (testItem mt (pre ++ x) (blen pre) u c) (.guard u.isMatch e) 0 x)
    (h : timesParse mt (pre ++ x) r u c (blen pre) = some res) :
    SoundAt R (.rep (.guard u.isMatch e) m n) pre x res := by
  simp only [timesParse, remK_eq (drop_here pre x), peek_eq (drop_here pre x)] at h
  simp only [caseO] at h
  have hl := moreIs_counts hc
  split at h
  · refine sound_count (more := r.more) (ok := r.contains) (er := .times) hl.1
      (fun k hk => by rw [hl.2]; exact ⟨And.left, fun h => ⟨h, hk⟩⟩) hc.1 guard_nil ht ?_
    simpa only [caseO] using h
  · next hs =>
    simp only [Option.some.injEq] at h
    have := needed_le hc u.minLength
    exact ⟨none, rep_short hu hc.1 hh (by omega), _, h.symm⟩

theorem sound_thenUU {e : Peg ι} (hu : u.Fair) (hv : v.Fair) (hh : e.halts = true)
    (ht : TestOk R (testItem mt (pre ++ x) (blen pre) u c) (.guard u.isMatch e) 0 x)
    (ht' : TestOk R (testItem mt (pre ++ x) (blen pre) v c) (.guard v.isMatch e) 0 x)
    (h : thenUParse mt (pre ++ x) u v c (blen pre) = some res) :
    SoundAt R (.seq (.guard u.isMatch e) (.guard v.isMatch e)) pre x res := by
  simp only [thenUParse, remK_eq (drop_here pre x), peek_eq (drop_here pre x)] at h
  -- fewer than two items, or too few bytes
  have short : (blen x < u.minLength + v.minLength ∨ x.length < 2) →
      Ford R (.seq (.guard u.isMatch e) (.guard v.isMatch e)) x none := by
    intro hs
    obtain ⟨r, hr⟩ := guard_halts (R := R) (f := u.isMatch) hh x
    cases r with
    | none => exact .seq_fail hr
    | some y =>
      obtain ⟨r, hr'⟩ := guard_halts (R := R) (f := v.isMatch) hh y
      cases r with
      | none => exact .seq_ok hr hr'
      | some z =>
        have h1 := guard_needs hu hr
        have h2 := guard_needs hv hr'
        obtain ⟨a, rfl, _⟩ := guard_ok hr
        obtain ⟨b, rfl, _⟩ := guard_ok hr'
        simp only [List.length_cons] at hs
        omega
  simp only [caseO] at h
  split at h
  · match x, ht, ht', short, h with
    | [], _, _, short, h =>
      simp only [indices_nil, Option.some.injEq] at h
      exact ⟨_, short (.inr (by simp)), _, h.symm⟩
    | [a], _, _, short, h =>
      simp only [indices_cons, indices_nil, Option.some.injEq] at h
      exact ⟨_, short (.inr (by simp)), _, h.symm⟩
    | a :: b :: y, ht, ht', short, h =>
      have ht := ht [] a (b :: y) rfl
      have ht' := ht' [a] b y rfl
      simp only [blen_nil, blen_cons, Nat.add_zero, Nat.zero_add] at ht ht'
      simp only [indices_cons, Nat.zero_add] at h
      split at h
      · cases h
      · next h1 => obtain ⟨_, hb, _⟩ := ht _ h1; cases hb
      · next b1 h1 =>
        obtain ⟨_, hb, hf⟩ := ht _ h1
        cases hb
        cases b1 with
        | false =>
          simp only [Bool.false_eq_true, if_false, Option.some.injEq] at h
          exact ⟨_, .seq_fail hf, _, h.symm⟩
        | true =>
          simp only [if_true] at h hf
          split at h
          · cases h
          · next h1 => obtain ⟨_, hb, _⟩ := ht' _ h1; cases hb
          · next b2 h2 =>
            obtain ⟨_, hb, hf'⟩ := ht' _ h2
            cases hb
            cases b2 with
            | false =>
              simp only [Bool.false_eq_true, if_false, Option.some.injEq] at h
              exact ⟨_, .seq_ok hf hf', _, h.symm⟩
            | true =>
              simp only [if_true] at h hf'
              refine ⟨_, .seq_ok hf hf', ?_⟩
              have h1 := calcLength_run (i := 0) (run := [a, b]) (rest := y) (by simp)
              rw [indices_head] at h
              simp only [blen_cons, blen_nil, Nat.add_zero, Nat.zero_add, List.singleton_append] at h1 h
              refine unit_span pre (a :: b :: y) (run := [a, b]) rfl ?_ h
              simpa using h1
          · next h1 => obtain ⟨_, hb, _⟩ := ht' _ h1; cases hb
      · next h1 => obtain ⟨_, hb, _⟩ := ht _ h1; cases hb
  · next hs =>
    simp only [Option.some.injEq] at h
    exact ⟨_, short (.inl (by omega)), _, h.symm⟩

/-- Two items, no condition. -/
theorem pegLeaf_thenU (u v : Neu ι) (hu : u.Fair) (hv : v.Fair) :
    LeafOk G R (.thenU u v .empty) (.seq (.cls u.isMatch) (.cls v.isMatch)) := fun pre x => by
  have h := parseL_thenU G none (pre ++ x) (blen pre) u v .empty
  simp only [thenUParse, remK_eq (drop_here pre x), peek_eq (drop_here pre x), caseO] at h
  match x, h with
  | [], h =>
    refine ⟨none, .seq_fail .cls_end, _, parses_iff.mpr (h.trans ?_), .neureThen, rfl⟩
    split <;> rfl
  | [a], h =>
    refine ⟨none, ?_, _, parses_iff.mpr (h.trans ?_), .neureThen, rfl⟩
    · cases ha : u.isMatch a with
      | true => exact .seq_ok (.cls_ok ha) .cls_end
      | false => exact .seq_fail (.cls_no ha)
    · split <;> rfl
  | a :: b :: y, h =>
    cases ha : u.isMatch a with
    | false =>
      refine ⟨none, .seq_fail (.cls_no ha), _, parses_iff.mpr (h.trans ?_), .neureThen, rfl⟩
      split
      · simp [indices_cons, testItem, ha]
      · rfl
    | true =>
      cases hb : v.isMatch b with
      | false =>
        refine ⟨none, .seq_ok (.cls_ok ha) (.cls_no hb), _, parses_iff.mpr (h.trans ?_), .neureThen, rfl⟩
        split
        · simp [indices_cons, testItem, check, ha, hb]
        · rfl
      | true =>
        have h1 := hu a ha
        have h2 := hv b hb
        refine ⟨some y, .seq_ok (.cls_ok ha) (.cls_ok hb), _, parses_iff.mpr (h.trans ?_), [a, b], rfl, rfl⟩
        rw [if_pos (by simp only [blen_cons]; omega)]
        have h3 := calcLength_run (i := 0) (run := [a, b]) (rest := y) (by simp)
        simp only [indices_cons, testItem, check, ha, hb, if_true]
        rw [indices_head]
        simp only [blen_cons, blen_nil, Nat.add_zero, Nat.zero_add, List.cons_append, List.nil_append] at h3 ⊢
        rw [h3]
        rfl

end Units

end Neure
