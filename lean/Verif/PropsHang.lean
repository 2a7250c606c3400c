import Verif.PropsLeftRec

/-!
# C35: the only ways to hang

For patterns without pattern conditions (`set_cond(regex_cond(..))`), in plain and policy
contexts: a match never returns if and only if it waits for a call that waits for a call
and so on without end, or it comes, in finitely many such steps, to a loop all of whose
rounds succeed for ever or to a skip pattern that never returns.
-/

set_option linter.unusedSectionVars false
set_option linter.unusedSimpArgs false

namespace Neure

open Demo

namespace Hang

open LeftRec (Skips)

variable {ι β σ : Type} [Item ι] {G : Rules ι β} {pol : Option (Pat ι β)} {d : List ι}

/-- `p` repeats `q`; after `c` rounds it goes on if `goesOn c`. -/
inductive RepeatOf : Pat ι β → Pat ι β → (Nat → Prop) → Prop where
  | rep (q r) : RepeatOf (.rep q r) q fun c => r.hi.allowsUpTo (c + 1)
  | rep2 (q m n) : RepeatOf (.rep2 q m n) q fun c => c ≤ n
  | collect (q m) : RepeatOf (.collect q m) q fun _ => True

/-- `p` is a list of `q` separated by `s`; after `c` rounds it goes on if `goesOn c`. -/
inductive ListOf : Pat ι β → Pat ι β → Pat ι β → (Nat → Prop) → Prop where
  | sep (q s k m) : ListOf (.sep q s k m) q s fun _ => True
  | sep2 (q s k m n) : ListOf (.sep2 q s k m n) q s fun c => c ≤ n
  | sepCollect (q s k m) : ListOf (.sepCollect q s k m) q s fun _ => True

/-- Matching `p` at `o` comes to the point where it matches `q` at `o'`, and waits for it. -/
inductive Awaits (G : Rules ι β) (pol : Option (Pat ι β)) (d : List ι) : Pat ι β → Nat → Pat ι β → Nat → Prop where
  | assert {q v o} : Awaits G pol d (.assert q v) o q o
  | opt {q o} : Awaits G pol d (.opt q) o q o
  | map {q f o} : Awaits G pol d (.map q f) o q o
  | pat {q o} : Awaits G pol d (.pat q) o q o
  | thn {a b o} : Awaits G pol d (.thn a b) o a o
  | thn2 {a b o s o1} : Runs G pol d a o (.ok s o1) → Awaits G pol d (.thn a b) o b o1
  | pre {a b o} : Awaits G pol d (.pre a b) o a o
  | pre2 {a b o s o1} : Runs G pol d a o (.ok s o1) → Awaits G pol d (.pre a b) o b o1
  | suf {a b o} : Awaits G pol d (.suf a b) o a o
  | suf2 {a b o s o1} : Runs G pol d a o (.ok s o1) → Awaits G pol d (.suf a b) o b o1
  | ifThen {a t b o} : Awaits G pol d (.ifThen a t b) o a o
  | ifThen2 {a t b o s o1} : Runs G pol d a o (.ok s o1) → Awaits G pol d (.ifThen a t b) o t o1
  | ifThen3 {a t b o s1 o1 s2 o2 s} : Runs G pol d a o (.ok s1 o1) → Runs G pol d t o1 (.ok s2 o2) →
      Hull s1 s2 s → Awaits G pol d (.ifThen a t b) o b o2
  | enclose {a b c o} : Awaits G pol d (.enclose a b c) o a o
  | enclose2 {a b c o s o1} : Runs G pol d a o (.ok s o1) → Awaits G pol d (.enclose a b c) o b o1
  | enclose3 {a b c o s1 o1 s2 o2 s} : Runs G pol d a o (.ok s1 o1) → Runs G pol d b o1 (.ok s2 o2) →
      Hull s1 s2 s → Awaits G pol d (.enclose a b c) o c o2
  | sepOnce {a b c o} : Awaits G pol d (.sepOnce a b c) o a o
  | sepOnce2 {a b c o s1 o1 t1} : Runs G pol d a o (.ok s1 o1) → Hull ⟨o, 0⟩ s1 t1 →
      Awaits G pol d (.sepOnce a b c) o b o1
  | sepOnce3 {a b c o s1 o1 t1 s2 o2 t2} : Runs G pol d a o (.ok s1 o1) → Hull ⟨o, 0⟩ s1 t1 →
      Runs G pol d b o1 (.ok s2 o2) → Hull t1 s2 t2 → Awaits G pol d (.sepOnce a b c) o c o2
  | or {a b o} : Awaits G pol d (.or a b) o a o
  | or2 {a b o e o1} : Runs G pol d a o (.err e o1) → Awaits G pol d (.or a b) o b o
  | longest {a b o} : Awaits G pol d (.longest a b) o a o
  | longest2 {a b o s o1} : Runs G pol d a o (.ok s o1) → Awaits G pol d (.longest a b) o b o
  | longest3 {a b o e o1} : Runs G pol d a o (.err e o1) → Awaits G pol d (.longest a b) o b o
  | branch {t a b c o} : t d o = .ok c → Awaits G pol d (.branch t a b) o (if c then a else b) o
  | build {q f o} : Awaits G pol d (.build q f) o q o
  | build2 {q f o s o1 p' o2} : Runs G pol d q o (.ok s o1) → f d o1 s = .ok p' o2 →
      Awaits G pol d (.build q f) o p' o2
  | choice {e before it after o} : (∀ jt ∈ before, Fails G pol d jt.1 o) →
      Awaits G pol d (.choice e (before ++ it :: after)) o it.1 o
  | ltm {e before it after o} : (∀ jt ∈ before, Matches G pol d jt.1 o ∨ Fails G pol d jt.1 o) →
      Awaits G pol d (.ltm e (before ++ it :: after)) o it.1 o
  | round {p q on k t o o1} : RepeatOf p q on → Applied G pol d q k ⟨o, 0⟩ o t o1 →
      (∀ j, j ≤ k → on j) → Awaits G pol d p o q o1
  | element {p q s on k t o o1} : ListOf p q s on → AppliedSep G pol d q s k ⟨o, 0⟩ o t o1 →
      (∀ j, j ≤ k → on j) → Awaits G pol d p o q o1
  | separator {p q s on k t o o1 sp o2} : ListOf p q s on → AppliedSep G pol d q s k ⟨o, 0⟩ o t o1 →
      (∀ j, j ≤ k → on j) → Runs G pol d q o1 (.ok sp o2) → Awaits G pol d p o s o2

/-- `p` at `o` is a loop all of whose rounds succeed: for every number there are that many
rounds. -/
inductive Endless (G : Rules ι β) (pol : Option (Pat ι β)) (d : List ι) : Pat ι β → Nat → Prop where
  | rounds {p q on o} : RepeatOf p q on → (∀ k, on k ∧ ∃ t o1, Applied G pol d q k ⟨o, 0⟩ o t o1) →
      Endless G pol d p o
  | list {p q s on o} : ListOf p q s on →
      (∀ k, on k ∧ ∃ t o1, AppliedSep G pol d q s k ⟨o, 0⟩ o t o1) → Endless G pol d p o

/-- Parsing `p` at `o` comes to the point where it parses `q` at `o'`, and waits for it:
directly (a cell), or after the skip pattern of a policy context. -/
inductive Step (G : Rules ι β) (pol : Option (Pat ι β)) (d : List ι) : Pat ι β → Nat → Pat ι β → Nat → Prop where
  | cell {i q o} : G i = some q → Step G pol d (.cell i) o q o
  | call {p o q o1 o2} : Awaits G pol d p o q o1 → Skips G pol d o1 o2 → Step G pol d p o q o2

/-- In finitely many steps. -/
inductive Steps (G : Rules ι β) (pol : Option (Pat ι β)) (d : List ι) : Pat ι β → Nat → Pat ι β → Nat → Prop where
  | here {p o} : Steps G pol d p o p o
  | next {p o q o1 r o2} : Step G pol d p o q o1 → Steps G pol d q o1 r o2 → Steps G pol d p o r o2

/-- There is a skip pattern and it never returns at `o`. -/
def SkipHangs (G : Rules ι β) (pol : Option (Pat ι β)) (d : List ι) (o : Nat) : Prop :=
  ∃ w, pol = some w ∧ ∀ r, ¬ Parses G none d w o r

/-- `p` at `o` is an endless loop, or waits for a skip pattern that never returns. -/
def Stuck (G : Rules ι β) (pol : Option (Pat ι β)) (d : List ι) (p : Pat ι β) (o : Nat) : Prop :=
  Endless G pol d p o ∨ ∃ q o', Awaits G pol d p o q o' ∧ SkipHangs G pol d o'

/-- No condition of a unit is a pattern. -/
def NoPatternCond : Pat ι β → Prop
  | .once _ c | .many1 _ c | .optU _ c | .many0 _ c | .between _ _ _ c | .times _ _ c
  | .thenU _ _ c => ∀ q, ¬ c.Has q
  | _ => True

/-! ## Lemmas -/

theorem Applied.snoc {q : Pat ι β} {k : Nat} {t t' s t2 : Span} {o o1 o2 : Nat}
    (h : Applied G pol d q k t o t' o1) (hr : Runs G pol d q o1 (.ok s o2)) (hh : Hull t' s t2) :
    Applied G pol d q (k + 1) t o t2 o2 := by
  induction h with
  | zero => exact .succ hr hh (.zero _ _)
  | succ h1 h2 _ ih => exact .succ h1 h2 (ih hr hh)

theorem AppliedSep.snoc {q s : Pat ι β} {k : Nat} {t t' sp ss t1 t2 : Span} {o o1 o2 o3 : Nat}
    (h : AppliedSep G pol d q s k t o t' o1) (hr : Runs G pol d q o1 (.ok sp o2))
    (hs : Runs G pol d s o2 (.ok ss o3)) (h1 : Hull t' sp t1) (h2 : Hull t1 ss t2) :
    AppliedSep G pol d q s (k + 1) t o t2 o3 := by
  induction h with
  | zero => exact .succ hr hs h1 h2 (.zero _ _)
  | succ a b c e _ ih => exact .succ a b c e (ih hr h1)

theorem parse_or {n : Nat} {q : Pat ι β} {o : Nat} {r : Res Span} (h : Runs G pol d q o r) :
    matWith (parse G n) pol d q o = none ∨ matWith (parse G n) pol d q o = some r := LeftRec.matWith_or (n := n) h

section Fuel

variable {n : Nat} {q s : Pat ι β} {more : Nat → Bool} {fin : Nat → Span → Nat → Option (Res Span)}

theorem repLoop_none {k : Nat} {t t' : Span} {o o1 : Nat} (h : Applied G pol d q k t o t' o1)
    (hn : matWith (parse G n) pol d q o1 = none) (fuel cnt : Nat) (hm : ∀ j, j ≤ k → more (cnt + j) = true) :
    repLoop (matWith (parse G n) pol d) q more fin fuel cnt t o = none := by
  induction h generalizing fuel cnt with
  | zero =>
    cases fuel with
    | zero => rfl
    | succ fuel =>
      have := hm 0 (Nat.le_refl _)
      simp only [Nat.add_zero] at this
      simp [repLoop, this, hn, caseR]
  | succ h1 h2 _ ih =>
    cases fuel with
    | zero => rfl
    | succ fuel =>
      have := hm 0 (Nat.zero_le _)
      simp only [Nat.add_zero] at this
      simp only [repLoop, this, if_true]
      rcases parse_or (n := n) h1 with h' | h'
      · simp only [h', caseR]
      · simp only [h', caseR, addK, hull_iff.mp h2]
        exact ih hn fuel (cnt + 1) fun j hj => by
          rw [show cnt + 1 + j = cnt + (j + 1) by omega]; exact hm _ (by omega)

theorem sepLoop_none {skip : Bool} {k : Nat} {t t' : Span} {o o1 : Nat}
    (h : AppliedSep G pol d q s k t o t' o1)
    (hn : matWith (parse G n) pol d q o1 = none ∨ ∃ sp o2, Runs G pol d q o1 (.ok sp o2) ∧ matWith (parse G n) pol d s o2 = none)
    (fuel cnt : Nat) (hm : ∀ j, j ≤ k → more (cnt + j) = true) :
    sepLoop (matWith (parse G n) pol d) q s skip more fin fuel cnt t o = none := by
  induction h generalizing fuel cnt with
  | zero =>
    cases fuel with
    | zero => rfl
    | succ fuel =>
      have := hm 0 (Nat.le_refl _)
      simp only [Nat.add_zero] at this
      rcases hn with hn | ⟨sp, o2, h1, hn⟩
      · simp [sepLoop, this, hn, caseR]
      · rcases parse_or (n := n) h1 with h' | h'
        · simp [sepLoop, this, h', caseR]
        · simp [sepLoop, this, h', hn, caseR]
  | succ h1 h2 h3 h4 _ ih =>
    cases fuel with
    | zero => rfl
    | succ fuel =>
      have := hm 0 (Nat.zero_le _)
      simp only [Nat.add_zero] at this
      simp only [sepLoop, this, if_true]
      rcases parse_or (n := n) h1 with h' | h'
      · simp only [h', caseR]
      · rcases parse_or (n := n) h2 with h'' | h''
        · simp only [h', h'', caseR]
        · simp only [h', h'', caseR, addK, hull_iff.mp h3, hull_iff.mp h4]
          exact ih hn fuel (cnt + 1) fun j hj => by
            rw [show cnt + 1 + j = cnt + (j + 1) by omega]; exact hm _ (by omega)

theorem choice_none {e : Error} {it : Pat ι β × Option (Val β)} {after} {o : Nat}
    (h : matWith (parse G n) pol d it.1 o = none) :
    ∀ (before : List (Pat ι β × Option (Val β))), (∀ jt ∈ before, Fails G pol d jt.1 o) →
      choiceLoop (matWith (parse G n) pol d) e o (before ++ it :: after) o = none := by
  intro before
  induction before with
  | nil => intro _; simp only [List.nil_append, choiceLoop, h, caseR]
  | cons jt rest ih =>
    intro hb
    obtain ⟨e', o2, hr⟩ := hb jt (List.mem_cons_self ..)
    simp only [List.cons_append, choiceLoop]
    rcases parse_or (n := n) hr with h' | h'
    · simp only [h', caseR]
    · simp only [h', caseR]
      exact ih fun it' h' => hb it' (List.mem_cons_of_mem _ h')

theorem ltm_none {e : Error} {it : Pat ι β × Option (Val β)} {after} {o : Nat}
    (h : matWith (parse G n) pol d it.1 o = none) :
    ∀ (before : List (Pat ι β × Option (Val β))),
      (∀ jt ∈ before, Matches G pol d jt.1 o ∨ Fails G pol d jt.1 o) → ∀ best o1,
      ltmLoop (matWith (parse G n) pol d) e o (before ++ it :: after) best o1 = none := by
  intro before
  induction before with
  | nil => intro _ best o1; cases best <;> simp only [List.nil_append, ltmLoop, h, caseR]
  | cons jt rest ih =>
    intro hb best o1
    have ih := ih fun it' h' => hb it' (List.mem_cons_of_mem _ h')
    simp only [List.cons_append, ltmLoop]
    rcases hb jt (List.mem_cons_self ..) with ⟨s, o2, hr⟩ | ⟨e', o2, hr⟩
    · rcases parse_or (n := n) hr with h' | h' <;> simp only [h', caseR]
      exact ih _ _
    · rcases parse_or (n := n) hr with h' | h' <;> simp only [h', caseR]
      exact ih _ _

end Fuel

theorem awaits_none {n : Nat} {p q : Pat ι β} {o o' : Nat} (ha : Awaits G pol d p o q o')
    (h : matWith (parse G n) pol d q o' = none) : parse G (n + 1) pol d p o = none := by
  cases ha with
  | thn2 hr | pre2 hr | suf2 hr | ifThen2 hr | enclose2 hr | or2 hr | longest2 hr | longest3 hr =>
    rcases parse_or (n := n) hr with h' | h' <;> simp only [parse, step, h', h, caseR]
  | ifThen3 h1 h2 h3 | enclose3 h1 h2 h3 =>
    rcases parse_or (n := n) h1 with h' | h' <;> rcases parse_or (n := n) h2 with h'' | h'' <;>
      simp only [parse, step, h', h'', h, caseR, addK, hull_iff.mp h3]
  | sepOnce2 h1 h2 =>
    rcases parse_or (n := n) h1 with h' | h' <;>
      simp only [parse, step, h', h, caseR, addK, hull_iff.mp h2]
  | sepOnce3 h1 h2 h3 h4 =>
    rcases parse_or (n := n) h1 with h' | h' <;> rcases parse_or (n := n) h3 with h'' | h'' <;>
      simp only [parse, step, h', h'', h, caseR, addK, hull_iff.mp h2, hull_iff.mp h4]
  | branch ht => simp [parse, step, ht, h, caseO, caseR]
  | build2 h1 h2 =>
    rcases parse_or (n := n) h1 with h' | h' <;> simp only [parse, step, h', h2, h, caseR]
  | choice hb => simp only [parse, step]; exact choice_none h _ hb
  | ltm hb => simp only [parse, step]; exact ltm_none h _ hb _ _
  | round hp hA hm =>
    cases hp <;> simp only [parse, step]
    · exact repLoop_none hA h _ _ fun j hj => by rw [Nat.zero_add, more_iff]; exact hm j hj
    · exact repLoop_none hA h _ _ fun j hj => by simpa using hm j hj
    · exact repLoop_none hA h _ _ fun j hj => rfl
  | element hp hA hm =>
    cases hp <;> simp only [parse, step]
    · exact sepLoop_none hA (.inl h) _ _ fun j hj => rfl
    · exact sepLoop_none hA (.inl h) _ _ fun j hj => by simpa using hm j hj
    · exact sepLoop_none hA (.inl h) _ _ fun j hj => rfl
  | separator hp hA hm hr =>
    cases hp <;> simp only [parse, step]
    · exact sepLoop_none hA (.inr ⟨_, _, hr, h⟩) _ _ fun j hj => rfl
    · exact sepLoop_none hA (.inr ⟨_, _, hr, h⟩) _ _ fun j hj => by simpa using hm j hj
    · exact sepLoop_none hA (.inr ⟨_, _, hr, h⟩) _ _ fun j hj => rfl
  | _ => simp only [parse, step, h, caseR]

/-! ## Endless loops -/

theorem repLoop_short {q : Pat ι β} {more : Nat → Bool} {fin : Nat → Span → Nat → Option (Res Span)} (fuel : Nat) :
    ∀ {k : Nat} {t t' : Span} {o o1 : Nat} (cnt : Nat), Applied G pol d q k t o t' o1 → fuel ≤ k →
      (∀ j, more (cnt + j) = true) → repLoop (matL G pol d) q more fin fuel cnt t o = none := by
  induction fuel with
  | zero => intros; rfl
  | succ fuel ih =>
    intro k t t' o o1 cnt h hk hm
    cases h with
    | zero => omega
    | succ h1 h2 h3 =>
      have h0 := hm 0
      simp only [Nat.add_zero] at h0
      simp only [repLoop, h0, if_true, runs_iff.mp h1, caseR, addK, hull_iff.mp h2]
      exact ih (cnt + 1) h3 (by omega) fun j => by
        rw [show cnt + 1 + j = cnt + (j + 1) by omega]; exact hm _

theorem sepLoop_short {q s : Pat ι β} {skip : Bool} {more : Nat → Bool}
    {fin : Nat → Span → Nat → Option (Res Span)} (fuel : Nat) :
    ∀ {k : Nat} {t t' : Span} {o o1 : Nat} (cnt : Nat), AppliedSep G pol d q s k t o t' o1 → fuel ≤ k →
      (∀ j, more (cnt + j) = true) → sepLoop (matL G pol d) q s skip more fin fuel cnt t o = none := by
  induction fuel with
  | zero => intros; rfl
  | succ fuel ih =>
    intro k t t' o o1 cnt h hk hm
    cases h with
    | zero => omega
    | succ h1 h2 h3 h4 h5 =>
      have h0 := hm 0
      simp only [Nat.add_zero] at h0
      simp only [sepLoop, h0, if_true, runs_iff.mp h1, runs_iff.mp h2, caseR, addK, hull_iff.mp h3, hull_iff.mp h4]
      exact ih (cnt + 1) h5 (by omega) fun j => by
        rw [show cnt + 1 + j = cnt + (j + 1) by omega]; exact hm _

theorem repL_endless {q : Pat ι β} {more : Nat → Bool} {fin : Nat → Span → Nat → Option (Res Span)} {o : Nat}
    (h : ∀ k, more k = true ∧ ∃ t o1, Applied G pol d q k ⟨o, 0⟩ o t o1) :
    repL (matL G pol d) q more fin 0 ⟨o, 0⟩ o = none := by
  cases hr : repL (matL G pol d) q more fin 0 ⟨o, 0⟩ o with
  | none => rfl
  | some r =>
    obtain ⟨n, hn⟩ := (lim_eq_some (approx_repLoop_const (matL G pol d) q more fin 0 ⟨o, 0⟩ o).1 _).mp hr
    obtain ⟨_, t, o1, ha⟩ := h n
    rw [show repLoop (matL G pol d) q more fin n 0 ⟨o, 0⟩ o = none from
      repLoop_short n 0 ha (Nat.le_refl _) fun j => by rw [Nat.zero_add]; exact (h j).1] at hn
    cases hn

theorem sepL_endless {q s : Pat ι β} {skip : Bool} {more : Nat → Bool}
    {fin : Nat → Span → Nat → Option (Res Span)} {o : Nat}
    (h : ∀ k, more k = true ∧ ∃ t o1, AppliedSep G pol d q s k ⟨o, 0⟩ o t o1) :
    sepL (matL G pol d) q s skip more fin 0 ⟨o, 0⟩ o = none := by
  cases hr : sepL (matL G pol d) q s skip more fin 0 ⟨o, 0⟩ o with
  | none => rfl
  | some r =>
    obtain ⟨n, hn⟩ := (lim_eq_some (approx_sepLoop_const (matL G pol d) q s skip more fin 0 ⟨o, 0⟩ o).1 _).mp hr
    obtain ⟨_, t, o1, ha⟩ := h n
    rw [show sepLoop (matL G pol d) q s skip more fin n 0 ⟨o, 0⟩ o = none from
      sepLoop_short n 0 ha (Nat.le_refl _) fun j => by rw [Nat.zero_add]; exact (h j).1] at hn
    cases hn

theorem endless_none {p : Pat ι β} {o : Nat} (h : Endless G pol d p o) : parseL G pol d p o = none := by
  cases h with
  | rounds hp hk =>
    cases hp
    · rw [parseL_rep]; exact repL_endless fun k => ⟨more_iff.mpr (hk k).1, (hk k).2⟩
    · rw [parseL_rep2]; exact repL_endless fun k => ⟨decide_eq_true (hk k).1, (hk k).2⟩
    · rw [parseL_collect]; exact repL_endless fun k => ⟨rfl, (hk k).2⟩
  | list hp hk =>
    cases hp
    · rw [parseL_sep]; exact sepL_endless fun k => ⟨rfl, (hk k).2⟩
    · rw [parseL_sep2]; exact sepL_endless fun k => ⟨decide_eq_true (hk k).1, (hk k).2⟩
    · rw [parseL_sepCollect]; exact sepL_endless fun k => ⟨rfl, (hk k).2⟩

/-! ## What a hanging match waits for -/

theorem matL_cases (q : Pat ι β) (o : Nat) : matL G pol d q o = none ∨
    (∃ s o1, Runs G pol d q o (.ok s o1)) ∨ (∃ e o1, Runs G pol d q o (.err e o1)) ∨ Runs G pol d q o .panic := by
  cases h : matL G pol d q o with
  | none => exact .inl rfl
  | some r =>
    cases r with
    | ok s o1 => exact .inr (.inl ⟨s, o1, runs_iff.mpr h⟩)
    | err e o1 => exact .inr (.inr (.inl ⟨e, o1, runs_iff.mpr h⟩))
    | panic => exact .inr (.inr (.inr (runs_iff.mpr h)))

theorem repL_waits {q : Pat ι β} {more : Nat → Bool} {fin : Nat → Span → Nat → Option (Res Span)} {o : Nat}
    (hfin : ∀ c t o, fin c t o ≠ none) (h : repL (matL G pol d) q more fin 0 ⟨o, 0⟩ o = none) :
    (∃ k t o1, Applied G pol d q k ⟨o, 0⟩ o t o1 ∧ (∀ j, j ≤ k → more j = true) ∧ matL G pol d q o1 = none) ∨
    ∀ k, more k = true ∧ ∃ t o1, Applied G pol d q k ⟨o, 0⟩ o t o1 := by
  refine Classical.or_iff_not_imp_left.mpr fun hno => ?_
  have none_of : ∀ r, ¬ repL (matL G pol d) q more fin 0 ⟨o, 0⟩ o = some r := fun r hr => by rw [h] at hr; cases hr
  have get : ∀ c t o, ∃ r, fin c t o = some r := fun c t o => Option.ne_none_iff_exists'.mp (hfin c t o)
  have key : ∀ k, (∃ t o1, Applied G pol d q k ⟨o, 0⟩ o t o1) ∧ ∀ j, j < k → more j = true := by
    intro k
    induction k with
    | zero => exact ⟨⟨_, _, .zero _ _⟩, fun j hj => by omega⟩
    | succ k ih =>
      obtain ⟨⟨t, o1, ha⟩, hj⟩ := ih
      have hj0 : ∀ j, j < k → more (0 + j) = true := fun j h => by rw [Nat.zero_add]; exact hj j h
      have hmk : more k = true := by
        cases hm : more k with
        | true => rfl
        | false =>
          obtain ⟨r, hr⟩ := get k t o1
          exact absurd ((repL_iff q more fin 0 ⟨o, 0⟩ o r).mpr
            ⟨k, t, o1, ha, hj0, .inl ⟨by rw [Nat.zero_add]; exact hm, by rw [Nat.zero_add]; exact hr⟩⟩) (none_of r)
      have hj' : ∀ j, j ≤ k → more j = true := fun j h => by
        rcases Nat.lt_or_eq_of_le h with h | rfl
        · exact hj j h
        · exact hmk
      have hmk0 : more (0 + k) = true := by rw [Nat.zero_add]; exact hmk
      rcases matL_cases (G := G) (d := d) q o1 with hn | ⟨s, o2, hr⟩ | ⟨e, o2, hr⟩ | hr
      · exact absurd ⟨k, t, o1, ha, hj', hn⟩ hno
      · refine ⟨?_, fun j hj => hj' j (by omega)⟩
        by_cases hh : ∃ u, Hull t s u
        · obtain ⟨u, hh⟩ := hh
          exact ⟨u, o2, Applied.snoc ha hr hh⟩
        · exact absurd ((repL_iff q more fin 0 ⟨o, 0⟩ o .panic).mpr
            ⟨k, t, o1, ha, hj0, .inr ⟨hmk0, .inr ⟨rfl, .inr ⟨s, o2, hr, fun u hu => hh ⟨u, hu⟩⟩⟩⟩⟩) (none_of _)
      · obtain ⟨r, hr'⟩ := get (0 + k) t o2
        exact absurd ((repL_iff q more fin 0 ⟨o, 0⟩ o r).mpr
          ⟨k, t, o1, ha, hj0, .inr ⟨hmk0, .inl ⟨e, o2, hr, hr'⟩⟩⟩) (none_of r)
      · exact absurd ((repL_iff q more fin 0 ⟨o, 0⟩ o .panic).mpr
          ⟨k, t, o1, ha, hj0, .inr ⟨hmk0, .inr ⟨rfl, .inl hr⟩⟩⟩) (none_of _)
  exact fun k => ⟨(key (k + 1)).2 k (Nat.lt_succ_self _), (key k).1⟩

theorem sepL_waits {q s : Pat ι β} {skip : Bool} {more : Nat → Bool}
    {fin : Nat → Span → Nat → Option (Res Span)} {o : Nat} (hfin : ∀ c t o, fin c t o ≠ none)
    (h : sepL (matL G pol d) q s skip more fin 0 ⟨o, 0⟩ o = none) :
    (∃ k t o1, AppliedSep G pol d q s k ⟨o, 0⟩ o t o1 ∧ (∀ j, j ≤ k → more j = true) ∧
      (matL G pol d q o1 = none ∨ ∃ sp o2, Runs G pol d q o1 (.ok sp o2) ∧ matL G pol d s o2 = none)) ∨
    ∀ k, more k = true ∧ ∃ t o1, AppliedSep G pol d q s k ⟨o, 0⟩ o t o1 := by
  refine Classical.or_iff_not_imp_left.mpr fun hno => ?_
  have none_of : ∀ r, ¬ sepL (matL G pol d) q s skip more fin 0 ⟨o, 0⟩ o = some r :=
    fun r hr => by rw [h] at hr; cases hr
  have get : ∀ c t o, ∃ r, fin c t o = some r := fun c t o => Option.ne_none_iff_exists'.mp (hfin c t o)
  have key : ∀ k, (∃ t o1, AppliedSep G pol d q s k ⟨o, 0⟩ o t o1) ∧ ∀ j, j < k → more j = true := by
    intro k
    induction k with
    | zero => exact ⟨⟨_, _, .zero _ _⟩, fun j hj => by omega⟩
    | succ k ih =>
      obtain ⟨⟨t, o1, ha⟩, hj⟩ := ih
      have hj0 : ∀ j, j < k → more (0 + j) = true := fun j h => by rw [Nat.zero_add]; exact hj j h
      have out : ∀ r, ((more (0 + k) = false ∧ fin (0 + k) t o1 = some r) ∨
         (more (0 + k) = true ∧
          ((∃ e o2, Runs G pol d q o1 (.err e o2) ∧ fin (0 + k) t o2 = some r) ∨
           (∃ sp o2 e o3, Runs G pol d q o1 (.ok sp o2) ∧ Runs G pol d s o2 (.err e o3) ∧
             ((skip = true ∧ ((∃ u, Hull t sp u ∧ fin (0 + k + 1) u o3 = some r) ∨
                ((∀ u, ¬ Hull t sp u) ∧ r = .panic))) ∨
              (skip = false ∧ fin (0 + k) t o3 = some r))) ∨
           (r = .panic ∧ (Runs G pol d q o1 .panic ∨
              ∃ sp o2, Runs G pol d q o1 (.ok sp o2) ∧ (Runs G pol d s o2 .panic ∨
                ∃ ss o3, Runs G pol d s o2 (.ok ss o3) ∧
                  ∀ u v, Hull t sp u → ¬ Hull u ss v)))))) → False := fun r hr =>
        none_of r ((sepL_iff q s skip more fin 0 ⟨o, 0⟩ o r).mpr ⟨k, t, o1, ha, hj0, hr⟩)
      have hmk0 : more (0 + k) = true := by
        cases hm : more (0 + k) with
        | true => rfl
        | false =>
          obtain ⟨r, hr⟩ := get (0 + k) t o1
          exact (out r (.inl ⟨hm, hr⟩)).elim
      have hj' : ∀ j, j ≤ k → more j = true := fun j h => by
        rcases Nat.lt_or_eq_of_le h with h | rfl
        · exact hj j h
        · rw [Nat.zero_add] at hmk0; exact hmk0
      have on := fun r hr => out r (.inr ⟨hmk0, hr⟩)
      rcases matL_cases (G := G) (d := d) q o1 with hn | ⟨sp, o2, hr⟩ | ⟨e, o2, hr⟩ | hr
      · exact absurd ⟨k, t, o1, ha, hj', .inl hn⟩ hno
      · rcases matL_cases (G := G) (d := d) s o2 with hn | ⟨ss, o3, hs⟩ | ⟨e, o3, hs⟩ | hs
        · exact absurd ⟨k, t, o1, ha, hj', .inr ⟨sp, o2, hr, hn⟩⟩ hno
        · refine ⟨?_, fun j hj => hj' j (by omega)⟩
          by_cases hh : ∃ u v, Hull t sp u ∧ Hull u ss v
          · obtain ⟨u, v, h1, h2⟩ := hh
            exact ⟨v, o3, AppliedSep.snoc ha hr hs h1 h2⟩
          · exact (on .panic (.inr (.inr ⟨rfl, .inr ⟨sp, o2, hr, .inr ⟨ss, o3, hs,
              fun u v h1 h2 => hh ⟨u, v, h1, h2⟩⟩⟩⟩))).elim
        · exfalso
          cases hk : skip with
          | true =>
            by_cases hh : ∃ u, Hull t sp u
            · obtain ⟨u, hh⟩ := hh
              obtain ⟨r, hr'⟩ := get (0 + k + 1) u o3
              exact on r (.inr (.inl ⟨sp, o2, e, o3, hr, hs, .inl ⟨hk, .inl ⟨u, hh, hr'⟩⟩⟩))
            · exact on .panic (.inr (.inl ⟨sp, o2, e, o3, hr, hs, .inl ⟨hk, .inr ⟨fun u hu => hh ⟨u, hu⟩, rfl⟩⟩⟩))
          | false =>
            obtain ⟨r, hr'⟩ := get (0 + k) t o3
            exact on r (.inr (.inl ⟨sp, o2, e, o3, hr, hs, .inr ⟨hk, hr'⟩⟩))
        · exact (on .panic (.inr (.inr ⟨rfl, .inr ⟨sp, o2, hr, .inl hs⟩⟩))).elim
      · obtain ⟨r, hr'⟩ := get (0 + k) t o2
        exact (on r (.inl ⟨e, o2, hr, hr'⟩)).elim
      · exact (on .panic (.inr (.inr ⟨rfl, .inl hr⟩))).elim
  exact fun k => ⟨(key (k + 1)).2 k (Nat.lt_succ_self _), (key k).1⟩

theorem addK_ne' {γ : Type} {s t : Span} {k : Span → Option (Res γ)} (h : ∀ u, Hull s t u → k u ≠ none) :
    addK s t k ≠ none := by
  intro h0
  by_cases hh : ∃ u, Hull s t u
  · obtain ⟨u, hu⟩ := hh
    simp only [addK, hull_iff.mp hu] at h0
    exact h u hu h0
  · have := hull_none.mpr fun u hu => hh ⟨u, hu⟩
    simp [addK, this] at h0

theorem choice_waits {e : Error} {o : Nat} {items : List (Pat ι β × Option (Val β))}
    (h : ∀ before it after, items = before ++ it :: after → (∀ jt ∈ before, Fails G pol d jt.1 o) →
      matL G pol d it.1 o ≠ none) : choiceLoop (matL G pol d) e o items o ≠ none := by
  induction items with
  | nil => simp [choiceLoop]
  | cons it items ih =>
    simp only [choiceLoop]
    refine caseR_ne (h [] it items rfl (by simp)) (fun _ _ _ => by simp) (fun e' o' he => ?_)
    refine ih fun before it' after hi hb => h (it :: before) it' after (by rw [hi]; rfl) fun jt hj => ?_
    rcases List.mem_cons.mp hj with rfl | hj
    · exact ⟨e', o', runs_iff.mpr he⟩
    · exact hb jt hj

theorem ltm_waits {e : Error} {o : Nat} {items : List (Pat ι β × Option (Val β))}
    (h : ∀ before it after, items = before ++ it :: after →
      (∀ jt ∈ before, Matches G pol d jt.1 o ∨ Fails G pol d jt.1 o) → matL G pol d it.1 o ≠ none)
    (best : Option Span) (o1 : Nat) : ltmLoop (matL G pol d) e o items best o1 ≠ none := by
  induction items generalizing best o1 with
  | nil => cases best <;> simp [ltmLoop]
  | cons it items ih =>
    simp only [ltmLoop]
    refine caseR_ne (h [] it items rfl (by simp)) (fun s' o' he => ?_) (fun e' o' he => ?_)
    · refine ih (fun before it' after hi hb => h (it :: before) it' after (by rw [hi]; rfl) fun jt hj => ?_) _ _
      rcases List.mem_cons.mp hj with rfl | hj
      · exact .inl ⟨s', o', runs_iff.mpr he⟩
      · exact hb jt hj
    · refine ih (fun before it' after hi hb => h (it :: before) it' after (by rw [hi]; rfl) fun jt hj => ?_) _ _
      rcases List.mem_cons.mp hj with rfl | hj
      · exact .inr ⟨e', o', runs_iff.mpr he⟩
      · exact hb jt hj

/-- A match returns if everything it waits for returns and it is not an endless loop. -/
theorem returns {p : Pat ι β} {o : Nat} (hc : NoPatternCond p)
    (h : ∀ q o', Awaits G pol d p o q o' → matL G pol d q o' ≠ none)
    (hcell : ∀ i q, p = .cell i → G i = some q → parseL G pol d q o ≠ none) (he : ¬ Endless G pol d p o) :
    parseL G pol d p o ≠ none := by
  have cond : ∀ (c : Cond ι β) (u : Neu ι), (∀ q, ¬ c.Has q) →
      ∀ pr, testItem (matL G pol) d o u c pr ≠ none :=
    fun c u hc pr => testItem_ne (fun i d' q hq _ => absurd hq (hc q)) pr
  have rep : ∀ (p q : Pat ι β) (on : Nat → Prop) (more : Nat → Bool)
      (fin : Nat → Span → Nat → Option (Res Span)), RepeatOf p q on → (∀ k, more k = true → on k) →
      (∀ q o', Awaits G pol d p o q o' → matL G pol d q o' ≠ none) → ¬ Endless G pol d p o →
      (∀ c t o, fin c t o ≠ none) → repL (matL G pol d) q more fin 0 ⟨o, 0⟩ o ≠ none := by
    intro p q on more fin hp hm h he hfin hn
    rcases repL_waits hfin hn with ⟨k, t, o1, ha, hj, hw⟩ | hall
    · exact h q o1 (.round hp ha fun j hj' => hm j (hj j hj')) hw
    · exact he (.rounds hp fun k => ⟨hm k (hall k).1, (hall k).2⟩)
  have sep : ∀ (p q s : Pat ι β) (on : Nat → Prop) (skip : Bool) (more : Nat → Bool)
      (fin : Nat → Span → Nat → Option (Res Span)), ListOf p q s on → (∀ k, more k = true → on k) →
      (∀ q o', Awaits G pol d p o q o' → matL G pol d q o' ≠ none) → ¬ Endless G pol d p o →
      (∀ c t o, fin c t o ≠ none) → sepL (matL G pol d) q s skip more fin 0 ⟨o, 0⟩ o ≠ none := by
    intro p q s on skip more fin hp hm h he hfin hn
    rcases sepL_waits hfin hn with ⟨k, t, o1, ha, hj, hw | ⟨sp, o2, hr, hw⟩⟩ | hall
    · exact h q o1 (.element hp ha fun j hj' => hm j (hj j hj')) hw
    · exact h s o2 (.separator hp ha (fun j hj' => hm j (hj j hj')) hr) hw
    · exact he (.list hp fun k => ⟨hm k (hall k).1, (hall k).2⟩)
  cases p
  case empty => rw [parseL_empty]; simp
  case fail => rw [parseL_fail]; simp
  case start => rw [parseL_start]; split <;> simp
  case anchorEnd => rw [parseL_anchorEnd]; split <;> simp
  case consume => rw [parseL_consume]; exact remK_ne fun _ => by split <;> simp
  case consumeAll => rw [parseL_consumeAll]; simp
  case lit =>
    rw [parseL_lit]
    refine remK_ne fun _ => ?_
    split
    · exact caseO_ne (by simp) (fun _ _ => by split <;> simp) (fun _ _ => by simp)
    · simp
  case native => rw [parseL_native]; simp
  case once u c =>
    rw [parseL_once]
    refine caseO_ne (by simp) (fun it _ => remK_ne fun _ => ?_) (fun _ _ => by simp)
    cases it with
    | nil => simp
    | cons pr it =>
      refine caseO_ne (cond c u hc pr) (fun b _ => ?_) (fun _ _ => by simp)
      split
      · exact spanK_ne _ _
      · simp
  case many1 u c =>
    rw [parseL_many1]
    refine caseO_ne (by simp) (fun it _ => remK_ne fun _ => ?_) (fun _ _ => by simp)
    refine caseO_ne (scan_ne (cond c u hc) _ _) (fun s _ => ?_) (fun _ _ => by simp)
    split
    · simp
    · exact spanK_ne _ _
  case optU u c =>
    rw [parseL_optU]
    refine remK_ne fun _ => caseO_ne (by simp) (fun it _ => ?_) (fun _ _ => by simp)
    cases it with
    | nil => simp
    | cons pr it =>
      refine caseO_ne (cond c u hc pr) (fun b _ => ?_) (fun _ _ => by simp)
      split
      · exact spanK_ne _ _
      · simp
  case many0 u c =>
    rw [parseL_many0]
    refine remK_ne fun _ => caseO_ne (by simp) (fun it _ => ?_) (fun _ _ => by simp)
    refine caseO_ne (scan_ne (cond c u hc) _ _) (fun s _ => ?_) (fun _ _ => by simp)
    split
    · simp
    · exact spanK_ne _ _
  case between m n u c =>
    rw [parseL_between]
    refine caseO_ne (by simp) (fun it _ => remK_ne fun _ => ?_) (fun _ _ => by simp)
    split
    · refine caseO_ne (scan_ne (cond c u hc) _ _) (fun s _ => ?_) (fun _ _ => by simp)
      split
      · exact spanK_ne _ _
      · simp
    · simp
  case times r u c =>
    rw [parseL_times]
    refine caseO_ne (by simp) (fun it _ => remK_ne fun _ => ?_) (fun _ _ => by simp)
    split
    · refine caseO_ne (scan_ne (cond c u hc) _ _) (fun s _ => ?_) (fun _ _ => by simp)
      split
      · exact spanK_ne _ _
      · simp
    · simp
  case thenU u v c =>
    rw [parseL_thenU]
    refine caseO_ne (by simp) (fun it _ => remK_ne fun _ => ?_) (fun _ _ => by simp)
    split
    · split
      · refine caseO_ne (cond c u hc _) (fun b _ => ?_) (fun _ _ => by simp)
        split
        · refine caseO_ne (cond c v hc _) (fun b _ => ?_) (fun _ _ => by simp)
          split
          · exact spanK_ne _ _
          · simp
        · simp
      · simp
    · simp
  case assert q v =>
    rw [parseL_assert]
    exact caseR_ne (h _ _ .assert) (fun _ _ _ => by split <;> simp) (fun _ _ _ => by split <;> simp)
  case thn a b =>
    rw [parseL_thn]
    exact caseR_ne (h _ _ .thn) (fun s o1 h1 => caseR_ne (h _ _ (.thn2 (runs_iff.mpr h1)))
      (fun _ _ _ => addK_ne fun _ => by simp) (fun _ _ _ => by simp)) (fun _ _ _ => by simp)
  case pre a b =>
    rw [parseL_pre]
    exact caseR_ne (h _ _ .pre) (fun s o1 h1 => caseR_ne (h _ _ (.pre2 (runs_iff.mpr h1)))
      (fun _ _ _ => addK_ne fun _ => by simp) (fun _ _ _ => by simp)) (fun _ _ _ => by simp)
  case suf a b =>
    rw [parseL_suf]
    exact caseR_ne (h _ _ .suf) (fun s o1 h1 => caseR_ne (h _ _ (.suf2 (runs_iff.mpr h1)))
      (fun _ _ _ => addK_ne fun _ => by simp) (fun _ _ _ => by simp)) (fun _ _ _ => by simp)
  case ifThen a t b =>
    rw [parseL_ifThen]
    refine caseR_ne (h _ _ .ifThen) (fun s o1 h1 => ?_) (fun _ _ _ => by simp)
    refine caseR_ne (h _ _ (.ifThen2 (runs_iff.mpr h1))) (fun s' o2 h2 => addK_ne' fun _ hh => ?_)
      (fun _ _ _ => by simp)
    exact caseR_ne (h _ _ (.ifThen3 (runs_iff.mpr h1) (runs_iff.mpr h2) hh))
      (fun _ _ _ => addK_ne fun _ => by simp) (fun _ _ _ => by simp)
  case enclose a t b =>
    rw [parseL_enclose]
    refine caseR_ne (h _ _ .enclose) (fun s o1 h1 => ?_) (fun _ _ _ => by simp)
    refine caseR_ne (h _ _ (.enclose2 (runs_iff.mpr h1))) (fun s' o2 h2 => addK_ne' fun _ hh => ?_)
      (fun _ _ _ => by simp)
    exact caseR_ne (h _ _ (.enclose3 (runs_iff.mpr h1) (runs_iff.mpr h2) hh))
      (fun _ _ _ => addK_ne fun _ => by simp) (fun _ _ _ => by simp)
  case sepOnce a t b =>
    rw [parseL_sepOnce]
    refine caseR_ne (h _ _ .sepOnce) (fun s o1 h1 => addK_ne' fun _ h1' => ?_) (fun _ _ _ => by simp)
    refine caseR_ne (h _ _ (.sepOnce2 (runs_iff.mpr h1) h1')) (fun s' o2 h2 => addK_ne' fun _ hh => ?_)
      (fun _ _ _ => by simp)
    exact caseR_ne (h _ _ (.sepOnce3 (runs_iff.mpr h1) h1' (runs_iff.mpr h2) hh))
      (fun _ _ _ => addK_ne fun _ => by simp) (fun _ _ _ => by simp)
  case or a b =>
    rw [parseL_or]
    refine caseR_ne (h _ _ .or) (fun _ _ _ => by simp) (fun _ _ h1 => ?_)
    exact caseR_ne (h _ _ (.or2 (runs_iff.mpr h1))) (fun _ _ _ => by simp) (fun _ _ _ => by simp)
  case longest a b =>
    rw [parseL_longest]
    refine caseR_ne (h _ _ .longest) (fun _ _ h1 => ?_) (fun _ _ h1 => ?_)
    · exact caseR_ne (h _ _ (.longest2 (runs_iff.mpr h1))) (fun _ _ _ => by split <;> simp) (fun _ _ _ => by simp)
    · exact caseR_ne (h _ _ (.longest3 (runs_iff.mpr h1))) (fun _ _ _ => by simp) (fun _ _ _ => by simp)
  case opt q =>
    rw [parseL_opt]
    exact caseR_ne (h _ _ .opt) (fun _ _ _ => by simp) (fun _ _ _ => by simp)
  case choice e items =>
    rw [parseL_choice]
    exact choice_waits fun before it after hi hb => h _ _ (by rw [hi]; exact .choice hb)
  case ltm e items =>
    rw [parseL_ltm]
    exact ltm_waits (fun before it after hi hb => h _ _ (by rw [hi]; exact .ltm hb)) _ _
  case rep q r =>
    rw [parseL_rep]
    exact rep _ q _ _ _ (.rep q r) (fun k hk => more_iff.mp hk) h he (finish_ne _ _ _)
  case rep2 q m n =>
    rw [parseL_rep2]
    exact rep _ q _ _ _ (.rep2 q m n) (fun k hk => of_decide_eq_true hk) h he (finish_ne _ _ _)
  case collect q m =>
    rw [parseL_collect]
    exact rep _ q _ _ _ (.collect q m) (fun _ _ => trivial) h he (finish_ne _ _ _)
  case sep q s skip m =>
    rw [parseL_sep]
    exact sep _ q s _ _ _ _ (.sep q s skip m) (fun _ _ => trivial) h he (finish_ne _ _ _)
  case sep2 q s skip m n =>
    rw [parseL_sep2]
    exact sep _ q s _ _ _ _ (.sep2 q s skip m n) (fun k hk => of_decide_eq_true hk) h he (finish_ne _ _ _)
  case sepCollect q s skip m =>
    rw [parseL_sepCollect]
    exact sep _ q s _ _ _ _ (.sepCollect q s skip m) (fun _ _ => trivial) h he (finish_ne _ _ _)
  case branch t a b =>
    rw [parseL_branch]
    refine caseO_ne (by simp) (fun b' ht => ?_) (fun _ _ => by simp)
    exact caseR_ne (h _ _ (.branch (by simpa using ht))) (fun _ _ _ => by simp) (fun _ _ _ => by simp)
  case map q f => rw [parseL_map]; exact h _ _ .map
  case pat q => rw [parseL_pat]; exact h _ _ .pat
  case build q f =>
    rw [parseL_build]
    refine caseR_ne (h _ _ .build) (fun s o1 h1 => ?_) (fun _ _ _ => by simp)
    refine caseR_ne (by simp) (fun p' o2 h' => ?_) (fun _ _ _ => by simp)
    exact caseR_ne (h _ _ (.build2 (runs_iff.mpr h1) (by simpa using h'))) (fun _ _ _ => by simp)
      (fun _ _ _ => by simp)
  case dthen => rw [parseL_dthen]; simp
  case cell i =>
    rw [parseL_cell]
    cases hG : G i with
    | none => simp
    | some q => exact hcell i q rfl hG

theorem awaits_child {p q : Pat ι β} {o o' : Nat} (h : Awaits G pol d p o q o') : Child G q p := by
  cases h with
  | round hp => cases hp <;> simp [Child]
  | element hp => cases hp <;> simp [Child]
  | separator hp => cases hp <;> simp [Child]
  | build2 _ hf => exact .inr ⟨d, _, _, _, hf⟩
  | @branch _ _ _ c => cases c <;> simp [Child]
  | choice | ltm => exact ⟨_, List.mem_append_right _ (List.mem_cons_self ..), rfl⟩
  | _ => simp_all [Child]

theorem step_child {p q : Pat ι β} {o o' : Nat} (h : Step G pol d p o q o') : Child G q p := by
  cases h with
  | cell hG => exact hG
  | call ha => exact awaits_child ha

theorem steps_snoc {p q r : Pat ι β} {o o1 o2 : Nat} (h : Steps G pol d p o q o1)
    (h' : Step G pol d q o1 r o2) : Steps G pol d p o r o2 := by
  induction h with
  | here => exact .next h' .here
  | next h1 _ ih => exact .next h1 (ih h')

theorem steps_all {P : Pat ι β → Prop} {p q : Pat ι β} {o o1 : Nat} (h : Steps G pol d p o q o1)
    (hp : All G P p) : All G P q := by
  induction h with
  | here => exact hp
  | next h1 _ ih => exact ih (hp.child (step_child h1))

theorem step_none {n : Nat} {p q : Pat ι β} {o o' : Nat} (ha : Step G pol d p o q o')
    (h : parse G n pol d q o' = none) : parse G (n + 1) pol d p o = none := by
  cases ha with
  | cell hG => simp only [parse, step, hG, h]
  | call ha hs => exact awaits_none ha (LeftRec.matWith_none h hs)

theorem parse_of_none {p : Pat ι β} {o : Nat} (h : parseL G pol d p o = none) (n : Nat) :
    parse G n pol d p o = none := by
  cases hn : parse G n pol d p o with
  | none => rfl
  | some r =>
    have := parses_iff.mp (show Parses G pol d p o r from ⟨n, hn⟩)
    rw [h] at this; cases this

theorem none_of_parse {p : Pat ι β} {o : Nat} (h : ∀ n, parse G n pol d p o = none) :
    parseL G pol d p o = none := by
  cases hp : parseL G pol d p o with
  | none => rfl
  | some r =>
    obtain ⟨n, hn⟩ := parses_iff.mpr hp
    rw [h n] at hn; cases hn

theorem never_iff {p : Pat ι β} {o : Nat} : (∀ r, ¬ Parses G pol d p o r) ↔ parseL G pol d p o = none := by
  simp only [parses_iff]
  cases parseL G pol d p o <;> simp

/-- No answer to what `p` waits for, no answer to `p`. -/
theorem step_hangs {p q : Pat ι β} {o o' : Nat} (ha : Step G pol d p o q o')
    (h : parseL G pol d q o' = none) : parseL G pol d p o = none :=
  none_of_parse fun n => by
    cases n with
    | zero => rfl
    | succ n => exact step_none ha (parse_of_none h n)

theorem steps_hangs {p q : Pat ι β} {o o' : Nat} (ha : Steps G pol d p o q o')
    (h : parseL G pol d q o' = none) : parseL G pol d p o = none := by
  induction ha with
  | here => exact h
  | next h1 _ ih => exact step_hangs h1 (ih h)

/-- A call hangs if the skip pattern does, or the pattern does behind what is skipped. -/
theorem call_hangs {p : Pat ι β} {o : Nat} : matL G pol d p o = none ↔
    SkipHangs G pol d o ∨ ∃ o1, Skips G pol d o o1 ∧ parseL G pol d p o1 = none := by
  cases pol with
  | none => simp [matL_none, SkipHangs, Skips]
  | some w =>
    rw [matL_some, matL_none]
    simp only [SkipHangs, Skips, Option.some.injEq, exists_eq_left', parses_iff]
    cases parseL G none d w o with
    | none => simp [caseR]
    | some r => cases r <;> simp [caseR]

theorem stuck_none {p : Pat ι β} {o : Nat} (h : Stuck G pol d p o) : parseL G pol d p o = none := by
  rcases h with h | ⟨q, o', ha, hs⟩
  · exact endless_none h
  · refine none_of_parse fun n => ?_
    cases n with
    | zero => rfl
    | succ n =>
      refine awaits_none ha ?_
      obtain ⟨w, rfl, hw⟩ := hs
      simp only [matWith, parse_of_none (never_iff.mp hw) n, caseR]

end Hang

variable {ι β σ : Type} [Item ι] {G : Rules ι β} {pol : Option (Pat ι β)} {d : List ι}

open Hang in
/-- **C35, the only ways to hang.** For a pattern none of whose units has a pattern for a
condition, in a plain or a policy context: the match never returns if and only if it waits
for a match that waits for a match and so on without end, or it comes in finitely many
steps to a loop all of whose rounds succeed for ever, or to a skip pattern that never
returns. -/
theorem C35_hangs_iff {p : Pat ι β} {o : Nat} (hp : All G NoPatternCond p) :
    (∀ r, ¬ Parses G pol d p o r) ↔
      (∃ (ps : Nat → Pat ι β) (os : Nat → Nat), ps 0 = p ∧ os 0 = o ∧
        ∀ n, Step G pol d (ps n) (os n) (ps (n + 1)) (os (n + 1))) ∨
      ∃ q o', Steps G pol d p o q o' ∧ Stuck G pol d q o' := by
  rw [never_iff]
  constructor
  · intro hn
    refine Classical.or_iff_not_imp_right.mpr fun hno => ?_
    -- the matches without an answer that `p` comes to
    let S := { c : Pat ι β × Nat // Steps G pol d p o c.1 c.2 ∧ parseL G pol d c.1 c.2 = none }
    have step : ∀ c : S, ∃ c' : S, Step G pol d c.1.1 c.1.2 c'.1.1 c'.1.2 := by
      rintro ⟨⟨q, o'⟩, ha, hq⟩
      refine Classical.byContradiction fun hc => ?_
      have go : ∀ r o2, Step G pol d q o' r o2 → parseL G pol d r o2 ≠ none := fun r o2 hw hm =>
        hc ⟨⟨(r, o2), steps_snoc ha hw, hm⟩, hw⟩
      refine returns (steps_all ha hp).self (fun r o2 hw hm => ?_)
        (fun i r hi hG => by subst hi; exact go _ _ (.cell hG))
        (fun he => hno ⟨q, o', ha, .inl he⟩) hq
      rcases call_hangs.mp hm with hs | ⟨o3, hs, hm⟩
      · exact hno ⟨q, o', ha, .inr ⟨r, o2, hw, hs⟩⟩
      · exact go _ _ (.call hw hs) hm
    let f : Nat → S := fun n => Nat.rec ⟨(p, o), .here, hn⟩ (fun _ c => Classical.choose (step c)) n
    exact ⟨fun n => (f n).1.1, fun n => (f n).1.2, rfl, rfl, fun n => Classical.choose_spec (step (f n))⟩
  · rintro (⟨ps, os, rfl, rfl, h⟩ | ⟨q, o', ha, he⟩)
    · have : ∀ n k, parse G n pol d (ps k) (os k) = none := by
        intro n
        induction n with
        | zero => intro k; rfl
        | succ n ih => exact fun k => step_none (h k) (ih (k + 1))
      exact none_of_parse fun n => this n 0
    · exact steps_hangs ha (stuck_none he)

open Hang LeftRec in
/-- `try_mat` never returns if and only if the skip pattern does not, or the pattern does
not behind what is skipped. -/
theorem C35_call_hangs_iff {p : Pat ι β} {o : Nat} : (∀ r, ¬ Runs G pol d p o r) ↔
    SkipHangs G pol d o ∨ ∃ o1, Skips G pol d o o1 ∧ ∀ r, ¬ Parses G pol d p o1 r := by
  simp only [never_iff, ← call_hangs, runs_iff]
  cases matL G pol d p o <;> simp

/-! Both ways are met: `p.collect()` over a pattern that matches without eating is an
endless loop, also behind a sequence; a rule that begins with itself waits for itself. -/
section

open Hang

private theorem empties (k o : Nat) : Applied G none d .empty k ⟨o, 0⟩ o ⟨o, 0⟩ o := by
  induction k with
  | zero => exact .zero _ _
  | succ k ih => exact .succ ⟨1, rfl⟩ (hull_iff.mpr (by simp [Span.addAssign])) ih

example : ∀ r, ¬ Parses (G0 (β := Unit)) none "ab".toList (.thn (.lit ['a']) (.collect .empty 0)) 0 r := by
  refine (C35_hangs_iff (All.intro (by trivial) ?_)).mpr
    (.inr ⟨.collect .empty 0, 1, .next (.call (.thn2 (s := ⟨0, 1⟩) ⟨1, rfl⟩) rfl) .here,
      .inl <| .rounds (.collect _ _) fun k => ⟨trivial, _, _, empties k 1⟩⟩)
  rintro q (rfl | rfl)
  · exact All.intro (by trivial) (by simp [Child])
  · exact All.intro (by trivial) (by rintro q rfl; exact All.intro (by trivial) (by simp [Child]))

/-- A skip pattern that never returns hangs every sequence. -/
example : ∀ r, ¬ Parses (G0 (β := Unit)) (some (.collect .empty 0)) "ab".toList
    (.thn (.lit ['a']) (.lit ['b'])) 0 r := by
  refine (C35_hangs_iff (All.intro (by trivial) ?_)).mpr
    (.inr ⟨_, 0, .here, .inr ⟨_, 0, .thn, _, rfl, ?_⟩⟩)
  · rintro q (rfl | rfl) <;> exact All.intro (by trivial) (by simp [Child])
  · refine (C35_hangs_iff (All.intro (by trivial) ?_)).mpr
      (.inr ⟨_, 0, .here, .inl <| .rounds (.collect _ _) fun k => ⟨trivial, _, _, empties k 0⟩⟩)
    rintro q rfl
    exact All.intro (by trivial) (by simp [Child])

/-- `r = "x" | r "y"`: on an input that does not begin with `x` it never returns. -/
private def leftRule : Rules Char Unit := fun i =>
  if i = 0 then some (.or (.lit ['x']) (.thn (.cell 0) (.lit ['y']))) else none

example : ∀ r, ¬ Parses leftRule none "ab".toList (.cell 0) 0 r := by
  refine (C35_hangs_iff fun q hq => ?_).mpr (.inl ⟨fun n => match n % 3 with
    | 0 => .cell 0 | 1 => .or (.lit ['x']) (.thn (.cell 0) (.lit ['y'])) | _ => .thn (.cell 0) (.lit ['y']),
    fun _ => 0, rfl, rfl, fun n => ?_⟩)
  · have : q = .cell 0 ∨ q = .or (.lit ['x']) (.thn (.cell 0) (.lit ['y'])) ∨
        q = .thn (.cell 0) (.lit ['y']) ∨ q = .lit ['x'] ∨ q = .lit ['y'] := by
      induction hq with
      | refl => exact .inl rfl
      | step _ hc ih =>
        rcases ih with rfl | rfl | rfl | rfl | rfl <;> simp [Child, leftRule] at hc
        · simp [← hc]
        · rcases hc with rfl | rfl <;> simp
        · rcases hc with rfl | rfl <;> simp
    rcases this with rfl | rfl | rfl | rfl | rfl <;> trivial
  · have : n % 3 = 0 ∨ n % 3 = 1 ∨ n % 3 = 2 := by omega
    rcases this with h | h | h
    · have h' : (n + 1) % 3 = 1 := by omega
      simp only [h, h']; exact .cell rfl
    · have h' : (n + 1) % 3 = 2 := by omega
      simp only [h, h']; exact .call (.or2 ⟨1, rfl⟩) rfl
    · have h' : (n + 1) % 3 = 0 := by omega
      simp only [h, h']; exact .call .thn rfl

end

end Neure
