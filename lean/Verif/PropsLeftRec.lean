import Verif.PropsTerm

/-!
# C35: left recursion, in general

`C35_returns` asks that no chain of calls comes back to the same position.  Here is
the other side: whenever matching (or building) a pattern needs a call, which needs
another call, and so on without end, the run never returns.  Direct and indirect
left recursion, recursion behind an optional or an empty prefix, and recursion in
the later alternatives of a choice are all of this form.
-/

set_option linter.unusedSectionVars false
set_option linter.unusedSimpArgs false

namespace Neure

open Demo

namespace LeftRec

variable {ι β σ : Type} [Item ι] {G : Rules ι β} {H : Handler ι β σ} {pol : Option (Pat ι β)}
  {d : List ι}

/-- A nested call made at `o` starts its pattern at `o1`: the same place in a plain context,
after what the policy pattern skips in a policy context. -/
def Skips (G : Rules ι β) (pol : Option (Pat ι β)) (d : List ι) (o o1 : Nat) : Prop :=
  match pol with
  | none => o1 = o
  | some w => ∃ s, Parses G none d w o (.ok s o1)

/-- Matching `p` at `o` cannot finish before matching `q` at `o'` has: for each
combinator, what it runs first, what it runs after a success of the first, and what it
runs after a failure of the first. -/
inductive Needs (G : Rules ι β) (pol : Option (Pat ι β)) (d : List ι) :
    Pat ι β → Nat → Pat ι β → Nat → Prop where
  | cell {i q o} : G i = some q → Needs G pol d (.cell i) o q o
  | assert {q v o o'} : Skips G pol d o o' → Needs G pol d (.assert q v) o q o'
  | thn {a b o o'} : Skips G pol d o o' → Needs G pol d (.thn a b) o a o'
  | thn2 {a b o s o1 o'} : Runs G pol d a o (.ok s o1) → Skips G pol d o1 o' →
      Needs G pol d (.thn a b) o b o'
  | pre {a b o o'} : Skips G pol d o o' → Needs G pol d (.pre a b) o a o'
  | pre2 {a b o s o1 o'} : Runs G pol d a o (.ok s o1) → Skips G pol d o1 o' →
      Needs G pol d (.pre a b) o b o'
  | suf {a b o o'} : Skips G pol d o o' → Needs G pol d (.suf a b) o a o'
  | suf2 {a b o s o1 o'} : Runs G pol d a o (.ok s o1) → Skips G pol d o1 o' →
      Needs G pol d (.suf a b) o b o'
  | ifThen {a t b o o'} : Skips G pol d o o' → Needs G pol d (.ifThen a t b) o a o'
  | ifThen2 {a t b o s o1 o'} : Runs G pol d a o (.ok s o1) → Skips G pol d o1 o' →
      Needs G pol d (.ifThen a t b) o t o'
  | enclose {a b c o o'} : Skips G pol d o o' → Needs G pol d (.enclose a b c) o a o'
  | enclose2 {a b c o s o1 o'} : Runs G pol d a o (.ok s o1) → Skips G pol d o1 o' →
      Needs G pol d (.enclose a b c) o b o'
  | sepOnce {a b c o o'} : Skips G pol d o o' → Needs G pol d (.sepOnce a b c) o a o'
  | or {a b o o'} : Skips G pol d o o' → Needs G pol d (.or a b) o a o'
  | or2 {a b o e o1 o'} : Runs G pol d a o (.err e o1) → Skips G pol d o o' →
      Needs G pol d (.or a b) o b o'
  | longest {a b o o'} : Skips G pol d o o' → Needs G pol d (.longest a b) o a o'
  | longest2 {a b o r o'} : Runs G pol d a o r → r ≠ .panic → Skips G pol d o o' →
      Needs G pol d (.longest a b) o b o'
  | opt {q o o'} : Skips G pol d o o' → Needs G pol d (.opt q) o q o'
  | map {q f o o'} : Skips G pol d o o' → Needs G pol d (.map q f) o q o'
  | pat {q o o'} : Skips G pol d o o' → Needs G pol d (.pat q) o q o'
  | build {q f o o'} : Skips G pol d o o' → Needs G pol d (.build q f) o q o'
  | branch {t a b c o o'} : t d o = .ok c → Skips G pol d o o' →
      Needs G pol d (.branch t a b) o (if c then a else b) o'
  | choice {e before q k after o o'} : (∀ it ∈ before, ∃ e' o1, Runs G pol d it.1 o (.err e' o1)) →
      Skips G pol d o o' → Needs G pol d (.choice e (before ++ (q, k) :: after)) o q o'
  | ltm {e q k after o o'} : Skips G pol d o o' → Needs G pol d (.ltm e ((q, k) :: after)) o q o'
  | rep {q r o o'} : r.more 0 = true → Skips G pol d o o' → Needs G pol d (.rep q r) o q o'
  | rep2 {q m n o o'} : Skips G pol d o o' → Needs G pol d (.rep2 q m n) o q o'
  | collect {q m o o'} : Skips G pol d o o' → Needs G pol d (.collect q m) o q o'
  | sep {q s k m o o'} : Skips G pol d o o' → Needs G pol d (.sep q s k m) o q o'
  | sep2 {q s k m n o o'} : Skips G pol d o o' → Needs G pol d (.sep2 q s k m n) o q o'
  | sepCollect {q s k m o o'} : Skips G pol d o o' → Needs G pol d (.sepCollect q s k m) o q o'

/-- Building each of these alternatives at `o`, one after the other, fails and turns the handler
state from `st` into `st'`. -/
inductive FailsAll (G : Rules ι β) (H : Handler ι β σ) (pol : Option (Pat ι β)) (d : List ι) (o : Nat) :
    List (Pat ι β × Option (Val β)) → σ → σ → Prop where
  | nil {st} : FailsAll G H pol d o [] st st
  | cons {it rest st e st1 o1 st2} : Constructs G H pol d it.1 st o (.err e st1 o1) →
      FailsAll G H pol d o rest st1 st2 → FailsAll G H pol d o (it :: rest) st st2

/-- Building a value with `p` at `o` cannot finish before building one with `q` at `o'` has;
`st` and `st'` are the states of the handler.  (Values are built without the policy pattern;
only the delimiters in between are matched with it.) -/
inductive CNeeds (G : Rules ι β) (H : Handler ι β σ) (pol : Option (Pat ι β)) (d : List ι) :
    Pat ι β → σ → Nat → Pat ι β → σ → Nat → Prop where
  | cell {i q st o} : G i = some q → CNeeds G H pol d (.cell i) st o q st o
  | thn {a b st o} : CNeeds G H pol d (.thn a b) st o a st o
  | thn2 {a b st o v st1 o1} : Constructs G H pol d a st o (.ok v st1 o1) →
      CNeeds G H pol d (.thn a b) st o b st1 o1
  | pre {a b st o s o1} : Runs G pol d a o (.ok s o1) → CNeeds G H pol d (.pre a b) st o b st o1
  | suf {a b st o} : CNeeds G H pol d (.suf a b) st o a st o
  | enclose {a b c st o s o1} : Runs G pol d a o (.ok s o1) →
      CNeeds G H pol d (.enclose a b c) st o b st o1
  | sepOnce {a b c st o} : CNeeds G H pol d (.sepOnce a b c) st o a st o
  | sepOnce2 {a b c st o v st1 o1 s o2} : Constructs G H pol d a st o (.ok v st1 o1) →
      Runs G pol d b o1 (.ok s o2) → CNeeds G H pol d (.sepOnce a b c) st o c st1 o2
  | ifThen {a t b st o} : CNeeds G H pol d (.ifThen a t b) st o a st o
  | ifThen2 {a t b st o v st1 o1 s o2} : Constructs G H pol d a st o (.ok v st1 o1) →
      Runs G pol d t o1 (.ok s o2) → CNeeds G H pol d (.ifThen a t b) st o b st1 o2
  | or {a b st o} : CNeeds G H pol d (.or a b) st o a st o
  | or2 {a b st o e st1 o1} : Constructs G H pol d a st o (.err e st1 o1) →
      CNeeds G H pol d (.or a b) st o b st1 o
  | longest {a b st o} : CNeeds G H pol d (.longest a b) st o a st o
  | longest2 {a b st o v st1 o1} : Constructs G H pol d a st o (.ok v st1 o1) →
      CNeeds G H pol d (.longest a b) st o b st1 o
  | longest3 {a b st o e st1 o1} : Constructs G H pol d a st o (.err e st1 o1) →
      CNeeds G H pol d (.longest a b) st o b st1 o
  | opt {q st o} : CNeeds G H pol d (.opt q) st o q st o
  | map {q f st o} : CNeeds G H pol d (.map q f) st o q st o
  | dthen {q f st o} : CNeeds G H pol d (.dthen q f) st o q st o
  | dthen2 {q f st o v st1 o1 p' o2} : Constructs G H pol d q st o (.ok v st1 o1) →
      f d o1 v = .ok p' o2 → CNeeds G H pol d (.dthen q f) st o p' st1 o2
  | branch {t a b c st o} : t d o = .ok c →
      CNeeds G H pol d (.branch t a b) st o (if c then a else b) st o
  | choice {e before q k after st st1 o} : FailsAll G H pol d o before st st1 →
      CNeeds G H pol d (.choice e (before ++ (q, k) :: after)) st o q st1 o
  | ltm {e q k after st o} : CNeeds G H pol d (.ltm e ((q, k) :: after)) st o q st o
  | rep {q r st o} : r.more 0 = true → CNeeds G H pol d (.rep q r) st o q st o
  | rep2 {q m n st o} : CNeeds G H pol d (.rep2 q m n) st o q st o
  | collect {q m st o} : CNeeds G H pol d (.collect q m) st o q st o
  | sep {q s k m st o} : CNeeds G H pol d (.sep q s k m) st o q st o
  | sep2 {q s k m n st o} : CNeeds G H pol d (.sep2 q s k m n) st o q st o
  | sepCollect {q s k m st o} : CNeeds G H pol d (.sepCollect q s k m) st o q st o

/-! ## Lemmas -/

theorem matWith_none {n : Nat} {q : Pat ι β} {o o' : Nat} (h : parse G n pol d q o' = none)
    (hs : Skips G pol d o o') : matWith (parse G n) pol d q o = none := by
  cases pol with
  | none => simp only [Skips] at hs; subst hs; exact h
  | some w =>
    obtain ⟨s, hw⟩ := hs
    simp only [matWith]
    cases hr : parse G n none d w o with
    | none => rfl
    | some r =>
      have : r = .ok s o' := Runs.unique (G := G) (pol := none) (d := d) (p := w) (o := o) ⟨n, hr⟩ hw
      subst this
      exact h

theorem matWith_or {n : Nat} {q : Pat ι β} {o : Nat} {r : Res Span} (h : Runs G pol d q o r) :
    matWith (parse G n) pol d q o = none ∨ matWith (parse G n) pol d q o = some r := by
  cases hr : matWith (parse G n) pol d q o with
  | none => exact .inl rfl
  | some r' => exact .inr (congrArg some (Runs.unique ⟨n, hr⟩ h))

theorem choice_none {n : Nat} {e : Error} {q : Pat ι β} {k : Option (Val β)} {after} {o : Nat}
    (h : matWith (parse G n) pol d q o = none) :
    ∀ (before : List (Pat ι β × Option (Val β))) (o1 : Nat),
      (∀ it ∈ before, ∃ e' o1, Runs G pol d it.1 o (.err e' o1)) → o1 = o →
      choiceLoop (matWith (parse G n) pol d) e o (before ++ (q, k) :: after) o1 = none := by
  intro before
  induction before with
  | nil => intro o1 _ ho; subst ho; simp only [List.nil_append, choiceLoop, h, caseR]
  | cons it rest ih =>
    intro o1 hb ho
    subst ho
    obtain ⟨e', o2, hr⟩ := hb it (List.mem_cons_self ..)
    simp only [List.cons_append, choiceLoop]
    rcases matWith_or (n := n) hr with h' | h'
    · simp only [h', caseR]
    · simp only [h', caseR]
      exact ih _ (fun it' h' => hb it' (List.mem_cons_of_mem _ h')) rfl

theorem repLoop_none {mt : Pat ι β → Nat → Option (Res Span)} {q : Pat ι β} {more : Nat → Bool} {fin}
    {n : Nat} {t : Span} {o : Nat} (hm : more 0 = true) (h : mt q o = none) :
    repLoop mt q more fin n 0 t o = none := by
  cases n <;> simp [repLoop, hm, h, caseR]

theorem sepLoop_none {mt : Pat ι β → Nat → Option (Res Span)} {q s : Pat ι β} {k : Bool}
    {more : Nat → Bool} {fin} {n : Nat} {t : Span} {o : Nat} (hm : more 0 = true) (h : mt q o = none) :
    sepLoop mt q s k more fin n 0 t o = none := by
  cases n <;> simp [sepLoop, hm, h, caseR]

theorem needs_none {n : Nat} {p q : Pat ι β} {o o' : Nat} (hn : Needs G pol d p o q o')
    (h : parse G n pol d q o' = none) : parse G (n + 1) pol d p o = none := by
  cases hn with
  | cell hG => simp only [parse, step, hG, h]
  | thn2 hr hs | pre2 hr hs | suf2 hr hs | ifThen2 hr hs | enclose2 hr hs =>
    have := matWith_none h hs
    rcases matWith_or (n := n) hr with h' | h' <;> simp only [parse, step, h', this, caseR]
  | or2 hr hs =>
    have := matWith_none h hs
    rcases matWith_or (n := n) hr with h' | h' <;> simp only [parse, step, h', this, caseR]
  | longest2 hr hp hs =>
    have := matWith_none h hs
    rcases matWith_or (n := n) hr with h' | h'
    · simp only [parse, step, h', caseR]
    · cases hh : (‹Res Span› : Res Span) <;> simp_all [parse, step, caseR]
  | branch ht hs =>
    have := matWith_none h hs
    simp [parse, step, ht, this, caseO, caseR]
  | choice hb hs =>
    have := matWith_none h hs
    simp only [parse, step]
    exact choice_none this _ _ hb rfl
  | ltm hs =>
    have := matWith_none h hs
    simp only [parse, step, ltmLoop, this, caseR]
  | rep hm hs =>
    have := matWith_none h hs
    simp only [parse, step]
    exact repLoop_none hm this
  | rep2 hs | collect hs =>
    have := matWith_none h hs
    simp only [parse, step]
    exact repLoop_none (by simp) this
  | sep hs | sep2 hs | sepCollect hs =>
    have := matWith_none h hs
    simp only [parse, step]
    exact sepLoop_none (by simp) this
  | map hs | pat hs =>
    have := matWith_none h hs
    simp only [parse, step, this]
  | _ hs =>
    have := matWith_none h hs
    simp only [parse, step, this, caseR]

theorem con_or {n : Nat} {q : Pat ι β} {st : σ} {o : Nat} {r : CRes σ (Val β)}
    (h : Constructs G H pol d q st o r) :
    con G H n pol d q st o = none ∨ con G H n pol d q st o = some r := by
  cases hr : con G H n pol d q st o with
  | none => exact .inl rfl
  | some r' => exact .inr (congrArg some (Constructs.unique ⟨n, hr⟩ h))

theorem conChoice_none {n : Nat} {e : Error} {q : Pat ι β} {k : Option (Val β)} {after} {o : Nat}
    {before : List (Pat ι β × Option (Val β))} {st st1 : σ}
    (hb : FailsAll G H pol d o before st st1) (h : con G H n pol d q st1 o = none) :
    conChoice (con G H n pol d) e o (before ++ (q, k) :: after) st o = none := by
  induction hb with
  | nil => simp only [List.nil_append, conChoice, h, caseC]
  | cons hc _ ih =>
    simp only [List.cons_append, conChoice]
    rcases con_or (n := n) hc with h' | h'
    · simp only [h', caseC]
    · simp only [h', caseC]; exact ih h

theorem cneeds_none {n : Nat} {p q : Pat ι β} {st st' : σ} {o o' : Nat}
    (hn : CNeeds G H pol d p st o q st' o') (h : con G H n pol d q st' o' = none) :
    con G H (n + 1) pol d p st o = none := by
  cases hn with
  | cell hG => simp only [con, conStep, hG, h]
  | thn2 hr | or2 hr | longest2 hr | longest3 hr =>
    rcases con_or (n := n) hr with h' | h' <;> simp only [con, conStep, h', h, caseC]
  | pre hr | enclose hr =>
    rcases matWith_or (n := n) hr with h' | h' <;> simp only [con, conStep, tryMat, h', h, caseC, caseM]
  | sepOnce2 hr hm | ifThen2 hr hm =>
    rcases con_or (n := n) hr with h' | h' <;> rcases matWith_or (n := n) hm with h'' | h'' <;>
      simp only [con, conStep, tryMat, h', h'', h, caseC, caseM]
  | dthen2 hr hf =>
    rcases con_or (n := n) hr with h' | h' <;> simp only [con, conStep, h', h, hf, caseC, caseM]
  | branch ht => simp [con, conStep, ht, h, caseT, caseC]
  | choice hb => simp only [con, conStep]; exact conChoice_none hb h
  | ltm => simp only [con, conStep, conLtm, h, caseC]
  | rep hm => simp only [con, conStep]; cases n <;> simp [conRep, hm, h, caseC]
  | rep2 | collect => simp only [con, conStep]; cases n <;> simp [conRep, h, caseC]
  | sep | sep2 => simp only [con, conStep]; cases n <;> simp [conSep, h, caseC]
  | sepCollect => simp only [con, conStep]; cases n <;> simp [conSepCollect, h, caseC]
  | _ => simp only [con, conStep, h, caseC]

end LeftRec

open LeftRec

variable {ι β σ : Type} [Item ι] {G : Rules ι β} {H : Handler ι β σ} {pol : Option (Pat ι β)}
  {d : List ι}

/-- **C35 (left recursion, every form).** If matching needs a call, which needs a call, and so
on for ever, then no call of the chain ever returns: no match, no failure, no panic. -/
theorem C35_endless_calls_diverge (ps : Nat → Pat ι β) (os : Nat → Nat)
    (h : ∀ k, Needs G pol d (ps k) (os k) (ps (k + 1)) (os (k + 1))) (k : Nat) (r : Res Span) :
    ¬ Parses G pol d (ps k) (os k) r := by
  rintro ⟨n, hn⟩
  have key : ∀ n k, parse G n pol d (ps k) (os k) = none := by
    intro n
    induction n with
    | zero => intro k; rfl
    | succ n ih => intro k; exact needs_none (h k) (ih (k + 1))
  rw [key] at hn
  cases hn

/-- **C35 (indirect left recursion).** Two rules that begin with each other, the second
behind an optional prefix that is absent: neither ever returns, whatever follows. -/
theorem C35_indirect_left_recursion_counterexample (i j : Nat) (x b c : Pat ι β)
    (hi : G i = some (.thn (.cell j) b)) (hj : G j = some (.thn (.opt x) (.thn (.cell i) c)))
    (o : Nat) (e : Error) (o1 : Nat) (hx : Runs G none d x o (.err e o1)) (r : Res Span) :
    ¬ Runs G none d (.cell i) o r ∧ ¬ Runs G none d (.cell j) o r := by
  have ho : Runs G none d (.opt x) o (.ok ⟨o, 0⟩ o) := by
    obtain ⟨n, hn⟩ := hx
    refine ⟨n + 1, ?_⟩
    have hn' : parse G n none d x o = some (.err e o1) := hn
    simp only [tryMat, matWith, parse, step, hn', caseR]
  let ps : Nat → Pat ι β := fun k => match k % 5 with
    | 0 => .cell i
    | 1 => .thn (.cell j) b
    | 2 => .cell j
    | 3 => .thn (.opt x) (.thn (.cell i) c)
    | _ => .thn (.cell i) c
  have hc : ∀ k, Needs G none d (ps k) o (ps (k + 1)) o := by
    intro k
    have hk : k % 5 < 5 := Nat.mod_lt _ (by decide)
    have hk1 : (k + 1) % 5 = (k % 5 + 1) % 5 := by omega
    simp only [ps, hk1]
    generalize k % 5 = m at hk
    match m, hk with
    | 0, _ => exact .cell hi
    | 1, _ => exact .thn rfl
    | 2, _ => exact .cell hj
    | 3, _ => exact .thn2 ho rfl
    | 4, _ => exact .thn rfl
  have := C35_endless_calls_diverge ps (fun _ => o) hc
  exact ⟨this 0 r, this 2 r⟩

example : let G : Rules Char Nat := fun i => match i with
      | 0 => some (.thn (.cell 1) (.lit ['+'])) | 1 => some (.thn (.opt (.lit ['-'])) (.thn (.cell 0) .empty))
      | _ => none
    ¬ Runs G none ['x'] (.cell 0) 0 (.err .literal 0) :=
  (C35_indirect_left_recursion_counterexample 0 1 _ _ _ rfl rfl 0 .literal 0 ⟨2, by decide⟩ _).1

/-- **C35 (left recursion, constructing).** The same for building values, with any handler: an
endless chain of calls never returns. -/
theorem C35_endless_construct_diverges (ps : Nat → Pat ι β) (sts : Nat → σ) (os : Nat → Nat)
    (h : ∀ k, CNeeds G H pol d (ps k) (sts k) (os k) (ps (k + 1)) (sts (k + 1)) (os (k + 1)))
    (k : Nat) (r : CRes σ (Val β)) : ¬ Constructs G H pol d (ps k) (sts k) (os k) r := by
  rintro ⟨n, hn⟩
  have key : ∀ n k, con G H n pol d (ps k) (sts k) (os k) = none := by
    intro n
    induction n with
    | zero => intro k; rfl
    | succ n ih => intro k; exact cneeds_none (h k) (ih (k + 1))
  rw [key] at hn
  cases hn

/-- **C35 (the usual left recursive rule).** `expr = expr op term | …`, written with `or`: building
it never returns, with any handler and any alternatives, on any input. -/
theorem C35_left_recursive_rule_counterexample (i : Nat) (rest other : Pat ι β)
    (hG : G i = some (.or (.thn (.cell i) rest) other)) (st : σ) (o : Nat) :
    (∀ r, ¬ Constructs G H none d (.cell i) st o r) ∧ ∀ r, ¬ Runs G none d (.cell i) o r := by
  let ps : Nat → Pat ι β := fun k => match k % 3 with
    | 0 => .cell i
    | 1 => .or (.thn (.cell i) rest) other
    | _ => .thn (.cell i) rest
  have hk : ∀ k, (ps k = .cell i ∧ ps (k + 1) = .or (.thn (.cell i) rest) other) ∨
      (ps k = .or (.thn (.cell i) rest) other ∧ ps (k + 1) = .thn (.cell i) rest) ∨
      (ps k = .thn (.cell i) rest ∧ ps (k + 1) = .cell i) := by
    intro k
    have hk : k % 3 < 3 := Nat.mod_lt _ (by decide)
    have hk1 : (k + 1) % 3 = (k % 3 + 1) % 3 := by omega
    simp only [ps, hk1]
    generalize k % 3 = m at hk
    match m, hk with
    | 0, _ => exact .inl ⟨rfl, rfl⟩
    | 1, _ => exact .inr (.inl ⟨rfl, rfl⟩)
    | 2, _ => exact .inr (.inr ⟨rfl, rfl⟩)
  constructor
  · refine C35_endless_construct_diverges ps (fun _ => st) (fun _ => o) (fun k => ?_) 0
    rcases hk k with ⟨h1, h2⟩ | ⟨h1, h2⟩ | ⟨h1, h2⟩ <;> rw [h1, h2]
    · exact .cell hG
    · exact .or
    · exact .thn
  · refine C35_endless_calls_diverge ps (fun _ => o) (fun k => ?_) 0
    rcases hk k with ⟨h1, h2⟩ | ⟨h1, h2⟩ | ⟨h1, h2⟩ <;> rw [h1, h2]
    · exact .cell hG
    · exact .or rfl
    · exact .thn rfl

example : let G : Rules Char Nat := fun _ => some (.or (.thn (.cell 0) (.lit ['+'])) (.lit ['n']))
    ¬ Constructs G lenH none ['n', '+', 'n'] (.cell 0) () 0 (.err .literal () 0) :=
  (C35_left_recursive_rule_counterexample 0 _ _ rfl () 0).1 _

end Neure
