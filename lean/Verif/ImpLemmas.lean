import Verif.Imp
/-!
# The imperative bodies compute the equations of `Match.lean` and `Ctor.lean`
-/

namespace Neure

set_option linter.unusedSectionVars false
set_option linter.unusedSimpArgs false

variable {ι β σ α γ : Type} [Item ι]

/-- A `try_mat` or `try_parse` as a program: the handler is not touched. -/
def liftR (r : Nat → Option (Res α)) : M σ (Except Error α) := fun st o => match r o with
  | none => none
  | some .panic => some .panic
  | some (.ok a o') => some (.done (.ok a) st o')
  | some (.err e o') => some (.done (.error e) st o')

/-- A `construct` as a program. -/
def liftC (r : σ → Nat → Option (CRes σ α)) : M σ (Except Error α) := fun st o => match r st o with
  | none => none
  | some .panic => some .panic
  | some (.ok a st' o') => some (.done (.ok a) st' o')
  | some (.err e st' o') => some (.done (.error e) st' o')

theorem M.bind_app (x : M σ α) (f : α → M σ γ) (st : σ) (o : Nat) :
    (x >>= f) st o = match x st o with
      | none => none
      | some .panic => some .panic
      | some (.done a st' o') => f a st' o' := rfl

theorem M.pure_app (a : α) (st : σ) (o : Nat) : (pure a : M σ α) st o = some (.done a st o) := rfl

theorem GM.bind_app (x : GM σ α) (f : α → GM σ γ) (g : Guard) (st : σ) (o : Nat) :
    (x >>= f) g st o = match x g st o with
      | none => none
      | some .panic => some .panic
      | some (.done (.ok a) g' st' o') => f a g' st' o'
      | some (.done (.error e) g' st' o') => some (.done (.error e) g' st' o') := rfl

theorem GM.pure_app (a : α) (g : Guard) (st : σ) (o : Nat) :
    (pure a : GM σ α) g st o = some (.done (.ok a) g st o) := rfl

theorem M.bind_pure_eq (x : M σ α) : (x >>= fun r => pure r) = x := by
  funext st o
  rw [M.bind_app]
  rcases x st o with _ | (⟨a, st', o'⟩ | _) <;> rfl

theorem isOk_ok (a : α) : isOk (.ok a) = true := id rfl
theorem isOk_error (e : Error) : isOk (.error e : Except Error α) = false := id rfl

/-- Unfolds the machine. -/
macro "run" : tactic => `(tactic|
  simp only [guarded, function, GM.call, GM.try_, GM.tryMat, GM.processRet, GM.beg, GM.bind_app,
    GM.pure_app, M.bind_app, M.pure_app, liftR, liftC, offset, setOffset, panic_, addAssign,
    inspectErr, peekCtx, moveCtx, remaining, spanInc, calcLen, onClone, isOk_ok, isOk_error, caseR, caseO, caseC, caseM,
    caseT, addK, remK, spanK, newSpanInc, if_true, if_false, Bool.true_eq_false, Bool.false_eq_true,
    ite_true, ite_false, reduceIte, Bool.or_self, Bool.or_false, Bool.or_true, Bool.true_or,
    Bool.false_or, Bool.not_true, Bool.not_false])


/-- The last step of the proofs below. -/
macro "add_cases" x:term : tactic => `(tactic| (cases $x:term <;> try rfl))

section Parse
variable (G : Rules ι β) (fuel : Nat) (mt : List ι → Pat ι β → Nat → Option (Res Span))
  (pr : Pat ι β → Nat → Option (Res Span)) (d : List ι)

theorem imp_thn (a b : Pat ι β) :
    Imp.thn (σ := σ) (fun p => liftR (mt d p)) a b = liftR (step G fuel mt pr d (.thn a b)) := by
  funext st o
  run
  simp only [Imp.thn, step]
  run
  rcases mt d a o with _ | (⟨s1, o1⟩ | ⟨e1, o1⟩ | _) <;> try rfl
  dsimp only
  rcases mt d b o1 with _ | (⟨s2, o2⟩ | ⟨e2, o2⟩ | _) <;> try rfl
  dsimp only
  cases s1.addAssign s2 <;> rfl
theorem imp_pre (a b : Pat ι β) :
    Imp.pre (σ := σ) (fun p => liftR (mt d p)) a b = liftR (step G fuel mt pr d (.pre a b)) := by
  funext st o
  run
  simp only [Imp.pre, step]
  run
  rcases mt d a o with _ | (⟨s1, o1⟩ | ⟨e1, o1⟩ | _) <;> try rfl
  dsimp only
  rcases mt d b o1 with _ | (⟨s2, o2⟩ | ⟨e2, o2⟩ | _) <;> try rfl
  dsimp only
  cases s1.addAssign s2 <;> rfl
theorem imp_suf (a b : Pat ι β) :
    Imp.suf (σ := σ) (fun p => liftR (mt d p)) a b = liftR (step G fuel mt pr d (.suf a b)) := by
  funext st o
  run
  simp only [Imp.suf, step]
  run
  rcases mt d a o with _ | (⟨s1, o1⟩ | ⟨e1, o1⟩ | _) <;> try rfl
  dsimp only
  rcases mt d b o1 with _ | (⟨s2, o2⟩ | ⟨e2, o2⟩ | _) <;> try rfl
  dsimp only
  cases s1.addAssign s2 <;> rfl
theorem imp_ifThen (a t b : Pat ι β) :
    Imp.ifThen (σ := σ) (fun p => liftR (mt d p)) a t b = liftR (step G fuel mt pr d (.ifThen a t b)) := by
  funext st o
  run
  simp only [Imp.ifThen, step]
  run
  rcases mt d a o with _ | (⟨s1, o1⟩ | ⟨e1, o1⟩ | _) <;> try rfl
  dsimp only
  rcases mt d t o1 with _ | (⟨s2, o2⟩ | ⟨e2, o2⟩ | _) <;> try rfl
  dsimp only
  rcases s1.addAssign s2 with _ | s12 <;> try rfl
  run
  rcases mt d b o2 with _ | (⟨s3, o3⟩ | ⟨e3, o3⟩ | _) <;> try rfl
  dsimp only
  cases s12.addAssign s3 <;> rfl
theorem imp_enclose (a b c : Pat ι β) :
    Imp.enclose (σ := σ) (fun p => liftR (mt d p)) a b c = liftR (step G fuel mt pr d (.enclose a b c)) := by
  funext st o
  run
  simp only [Imp.enclose, step]
  run
  rcases mt d a o with _ | (⟨s1, o1⟩ | ⟨e1, o1⟩ | _) <;> try rfl
  dsimp only
  rcases mt d b o1 with _ | (⟨s2, o2⟩ | ⟨e2, o2⟩ | _) <;> try rfl
  dsimp only
  rcases s1.addAssign s2 with _ | s12 <;> try rfl
  dsimp only [M.pure_app]
  rcases mt d c o2 with _ | (⟨s3, o3⟩ | ⟨e3, o3⟩ | _) <;> try rfl
  dsimp only
  cases s12.addAssign s3 <;> rfl
theorem imp_sepOnce (a b c : Pat ι β) :
    Imp.sepOnce (σ := σ) (fun p => liftR (mt d p)) a b c = liftR (step G fuel mt pr d (.sepOnce a b c)) := by
  funext st o
  run
  simp only [Imp.sepOnce, step]
  run
  rcases mt d a o with _ | (⟨s1, o1⟩ | ⟨e1, o1⟩ | _) <;> try rfl
  dsimp only
  rcases Span.addAssign ⟨o, 0⟩ s1 with _ | t1 <;> try rfl
  dsimp only [M.pure_app]
  rcases mt d b o1 with _ | (⟨s2, o2⟩ | ⟨e2, o2⟩ | _) <;> try rfl
  dsimp only
  rcases t1.addAssign s2 with _ | t2 <;> try rfl
  dsimp only [M.pure_app]
  rcases mt d c o2 with _ | (⟨s3, o3⟩ | ⟨e3, o3⟩ | _) <;> try rfl
  dsimp only
  cases t2.addAssign s3 <;> rfl
theorem imp_assert (q : Pat ι β) (value : Bool) :
    Imp.assert (σ := σ) (fun p => liftR (mt d p)) q value = liftR (step G fuel mt pr d (.assert q value)) := by
  funext st o
  run
  simp only [Imp.assert, step]
  run
  rcases mt d q o with _ | (⟨s1, o1⟩ | ⟨e1, o1⟩ | _) <;> cases value <;> try rfl

theorem imp_or (a b : Pat ι β) :
    Imp.or (σ := σ) (fun p => liftR (mt d p)) a b = liftR (step G fuel mt pr d (.or a b)) := by
  funext st o
  run
  simp only [Imp.or, step]
  run
  rcases mt d a o with _ | (⟨s1, o1⟩ | ⟨e1, o1⟩ | _) <;> try rfl
  dsimp only
  run
  rcases mt d b o with _ | (⟨s2, o2⟩ | ⟨e2, o2⟩ | _) <;> try rfl

theorem imp_longest (a b : Pat ι β) :
    Imp.longest (σ := σ) (fun p => liftR (mt d p)) a b = liftR (step G fuel mt pr d (.longest a b)) := by
  funext st o
  run
  simp only [Imp.longest, step]
  run
  rcases mt d a o with _ | (⟨s1, o1⟩ | ⟨e1, o1⟩ | _) <;> try rfl
  · dsimp only
    rcases mt d b o with _ | (⟨s2, o2⟩ | ⟨e2, o2⟩ | _) <;> try rfl
    dsimp only
    split <;> rfl
  · dsimp only
    rcases mt d b o with _ | (⟨s2, o2⟩ | ⟨e2, o2⟩ | _) <;> rfl
theorem imp_opt (q : Pat ι β) :
    Imp.opt (σ := σ) (fun p => liftR (mt d p)) q = liftR (step G fuel mt pr d (.opt q)) := by
  funext st o
  run
  simp only [Imp.opt, step]
  run
  rcases mt d q o with _ | (⟨s1, o1⟩ | ⟨e1, o1⟩ | _) <;> try rfl

theorem imp_branch (test : List ι → Nat → Out Bool) (a b : Pat ι β) :
    Imp.branch (σ := σ) (fun p => liftR (mt d p)) d test a b = liftR (step G fuel mt pr d (.branch test a b)) := by
  funext st o
  run
  simp only [Imp.branch, step]
  run
  rcases test d o with (t | e | _) <;> try rfl
  cases t
  · try run
    rcases mt d b o with _ | (⟨s1, o1⟩ | ⟨e1, o1⟩ | _) <;> rfl
  · try run
    rcases mt d a o with _ | (⟨s1, o1⟩ | ⟨e1, o1⟩ | _) <;> rfl
theorem imp_build (q : Pat ι β) (f : List ι → Nat → Span → Res (Pat ι β)) :
    Imp.build (σ := σ) (fun p => liftR (mt d p)) d q f = liftR (step G fuel mt pr d (.build q f)) := by
  funext st o
  run
  simp only [Imp.build, step]
  run
  rcases mt d q o with _ | (⟨s1, o1⟩ | ⟨e1, o1⟩ | _) <;> try rfl
  dsimp only
  rcases f d o1 s1 with (⟨p, o2⟩ | ⟨e2, o2⟩ | _) <;> try rfl
  dsimp only
  rcases mt d p o2 with _ | (⟨s3, o3⟩ | ⟨e3, o3⟩ | _) <;> try rfl

theorem imp_choice_loop (e : Error) (beg : Nat) (st : σ) : ∀ (items : List (Pat ι β × Option (Val β))) (o : Nat),
    forIn_ (fun item (ret : Except Error Span) => do
      let r ← inspectErr (← liftR (mt d item.1)) beg
      match r with
      | .ok span => return (.ok span, false)
      | .error _ => return (ret, true)) items (.error e) st o =
    liftR (choiceLoop (mt d) e beg items) st o
  | [], o => rfl
  | it :: items, o => by
    simp only [forIn_, choiceLoop]
    run
    rcases mt d it.1 o with _ | (⟨s1, o1⟩ | ⟨e1, o1⟩ | _) <;> try rfl
    exact imp_choice_loop e beg st items beg

theorem imp_choice (e : Error) (items : List (Pat ι β × Option (Val β))) :
    Imp.choice (σ := σ) (fun p => liftR (mt d p)) e items = liftR (step G fuel mt pr d (.choice e items)) := by
  funext st o
  exact imp_choice_loop mt d e o st items o

theorem imp_ltm_loop (e : Error) (beg : Nat) (st : σ) :
    ∀ (items : List (Pat ι β × Option (Val β))) (best : Option Span) (o : Nat),
    (forIn_ (fun item (longest : Option Span) => do
      setOffset beg
      let r ← liftR (mt d item.1)
      match r with
      | .ok span =>
        if (longest.map fun v => decide (v.len < span.len)).getD true then return (some span, true)
        else return (longest, true)
      | .error _ => return (longest, true)) items best >>= fun longest =>
      match longest with
      | some s => pure (.ok s)
      | none => pure (.error e)) st o =
    liftR (ltmLoop (mt d) e beg items best) st o
  | [], best, o => by cases best <;> rfl
  | it :: items, best, o => by
    simp only [forIn_]
    run
    simp only [ltmLoop]
    run
    rcases hm : mt d it.1 beg with _ | (⟨s1, o1⟩ | ⟨e1, o1⟩ | _) <;> try rfl
    · have ih := imp_ltm_loop e beg st items (if (best.map fun v => decide (v.len < s1.len)).getD true then some s1 else best) o1
      dsimp only
      rw [M.bind_app] at ih
      cases best with
      | none => exact ih
      | some v =>
        simp only [Option.map_some, Option.getD_some, decide_eq_true_eq] at ih ⊢
        by_cases hb : v.len < s1.len
        · simp only [if_pos hb] at ih ⊢
          exact ih
        · simp only [if_neg hb] at ih ⊢
          exact ih
    · exact imp_ltm_loop e beg st items best o1

theorem imp_ltm (e : Error) (items : List (Pat ι β × Option (Val β))) :
    Imp.ltm (σ := σ) (fun p => liftR (mt d p)) e items = liftR (step G fuel mt pr d (.ltm e items)) := by
  funext st o
  exact imp_ltm_loop mt d e o st items none o

theorem imp_repLoop (q : Pat ι β) (more ok : Nat → Bool) (e : Error) (beg : Nat) (st : σ) :
    ∀ (fuel cnt : Nat) (total : Span) (o : Nat),
    (loop (fun (x : Nat × Span) => do
      if more x.1 then
        match ← liftR (mt d q) with
        | .ok s => return ((x.1 + 1, ← addAssign x.2 s), true)
        | .error _ => return ((x.1, x.2), false)
      else return ((x.1, x.2), false)) fuel (cnt, total) >>= fun x =>
      inspectErr (if ok x.1 then .ok x.2 else .error e) beg) st o =
    liftR (repLoop (mt d) q more (finish ok e beg) fuel cnt total) st o
  | 0, _, _, _ => rfl
  | fuel + 1, cnt, total, o => by
    simp only [loop]
    run
    simp only [repLoop]
    run
    cases more cnt
    · simp only [Bool.false_eq_true, if_false, finish]
      run
      cases ok cnt <;> rfl
    · simp only [if_true]
      run
      rcases mt d q o with _ | (⟨s1, o1⟩ | ⟨e1, o1⟩ | _) <;> try rfl
      · dsimp only
        cases total.addAssign s1 with
        | none => rfl
        | some t => exact imp_repLoop q more ok e beg st fuel (cnt + 1) t o1
      · simp only [finish]
        run
        cases ok cnt <;> rfl

theorem imp_rep (q : Pat ι β) (r : CRange) :
    Imp.rep (σ := σ) (fun p => liftR (mt d p)) fuel q r = liftR (step G fuel mt pr d (.rep q r)) := by
  funext st o
  exact imp_repLoop mt d q r.more r.contains .repeat_ o st fuel 0 ⟨o, 0⟩ o

theorem imp_rep2 (q : Pat ι β) (m n : Nat) :
    Imp.rep2 (σ := σ) (fun p => liftR (mt d p)) fuel q m n = liftR (step G fuel mt pr d (.rep2 q m n)) := by
  funext st o
  have h := imp_repLoop mt d q (fun c => decide (c ≤ n)) (fun c => decide (m ≤ c) && decide (c ≤ n)) .repeat2 o st fuel 0 ⟨o, 0⟩ o
  simp only [decide_eq_true_eq, Bool.and_eq_true] at h
  exact h

theorem imp_collect (q : Pat ι β) (min : Nat) :
    Imp.collect (σ := σ) (fun p => liftR (mt d p)) fuel q min = liftR (step G fuel mt pr d (.collect q min)) := by
  funext st o
  have h := imp_repLoop mt d q (fun _ => true) (fun c => decide (c ≥ min)) .collect o st fuel 0 ⟨o, 0⟩ o
  simp only [decide_eq_true_eq, if_true] at h
  exact h

theorem imp_sepBody (s : Pat ι β) (skip : Bool) (cnt : Nat) (total ps : Span) (st : σ) (o : Nat) :
    Imp.sepBody (fun p => liftR (mt d p)) s skip cnt total ps st o =
      match mt d s o with
      | none => none
      | some .panic => some .panic
      | some (.ok ss o') => match total.addAssign ps with
        | none => some .panic
        | some t => match t.addAssign ss with
          | none => some .panic
          | some t' => some (.done ((cnt + 1, t'), true) st o')
      | some (.err _ o') => if skip then
          match total.addAssign ps with
          | none => some .panic
          | some t => some (.done ((cnt + 1, t), false) st o')
        else some (.done ((cnt, total), false) st o') := by
  simp only [Imp.sepBody, M.bind_app, liftR]
  rcases mt d s o with _ | (⟨s2, o2⟩ | ⟨e2, o2⟩ | _) <;> try rfl
  · simp only [isOk_ok, Bool.true_or, if_true, addAssign]
    cases total.addAssign ps with
    | none => rfl
    | some t =>
      dsimp only
      rw [M.bind_app, M.pure_app]
      dsimp only
      cases t.addAssign s2 <;> rfl
  · cases skip
    · rfl
    · simp only [isOk_error, Bool.or_true, if_true, addAssign]
      cases total.addAssign ps <;> rfl

theorem imp_sepLoop (q s : Pat ι β) (skip : Bool) (more ok : Nat → Bool) (e : Error) (beg : Nat) (st : σ) :
    ∀ (fuel cnt : Nat) (total : Span) (o : Nat),
    (loop (fun (x : Nat × Span) => do
      if more x.1 then
        match ← liftR (mt d q) with
        | .ok pSpan => Imp.sepBody (fun p => liftR (mt d p)) s skip x.1 x.2 pSpan
        | .error _ => return ((x.1, x.2), false)
      else return ((x.1, x.2), false)) fuel (cnt, total) >>= fun x =>
      inspectErr (if ok x.1 then .ok x.2 else .error e) beg) st o =
    liftR (sepLoop (mt d) q s skip more (finish ok e beg) fuel cnt total) st o
  | 0, _, _, _ => rfl
  | fuel + 1, cnt, total, o => by
    simp only [loop]
    run
    simp only [sepLoop]
    run
    cases more cnt
    · simp only [Bool.false_eq_true, if_false, finish]
      run
      cases ok cnt <;> rfl
    · simp only [if_true]
      run
      rcases mt d q o with _ | (⟨s1, o1⟩ | ⟨e1, o1⟩ | _) <;> try rfl
      · dsimp only
        rw [M.bind_app, imp_sepBody]
        rcases mt d s o1 with _ | (⟨s2, o2⟩ | ⟨e2, o2⟩ | _) <;> try rfl
        · dsimp only
          cases total.addAssign s1 with
          | none => rfl
          | some t =>
            dsimp only
            cases t.addAssign s2 with
            | none => rfl
            | some t2 => exact imp_sepLoop q s skip more ok e beg st fuel (cnt + 1) t2 o2
        · cases skip
          · simp only [Bool.false_eq_true, if_false, finish]
            run
            cases ok cnt <;> rfl
          · simp only [if_true]
            cases total.addAssign s1 with
            | none => rfl
            | some t =>
              simp only [finish]
              run
              cases ok (cnt + 1) <;> rfl
      · simp only [finish]
        run
        cases ok cnt <;> rfl

theorem imp_sep (q s : Pat ι β) (skip : Bool) (min : Nat) :
    Imp.sep (σ := σ) (fun p => liftR (mt d p)) fuel q s skip min =
      liftR (step G fuel mt pr d (.sep q s skip min)) := by
  funext st o
  have h := imp_sepLoop mt d q s skip (fun _ => true) (fun c => decide (c ≥ min)) .separate o st fuel 0 ⟨o, 0⟩ o
  simp only [decide_eq_true_eq, if_true] at h
  simp only [M.bind_pure_eq] at h
  simp only [Imp.sep, M.bind_pure_eq]
  exact h

theorem imp_sep2 (q s : Pat ι β) (skip : Bool) (m n : Nat) :
    Imp.sep2 (σ := σ) (fun p => liftR (mt d p)) fuel q s skip m n =
      liftR (step G fuel mt pr d (.sep2 q s skip m n)) := by
  funext st o
  have h := imp_sepLoop mt d q s skip (fun c => decide (c ≤ n)) (fun c => decide (c ≥ m)) .separate2 o st fuel 0 ⟨o, 0⟩ o
  simp only [decide_eq_true_eq] at h
  simp only [M.bind_pure_eq] at h
  simp only [Imp.sep2, M.bind_pure_eq]
  exact h

theorem imp_sepCollect (q s : Pat ι β) (skip : Bool) (min : Nat) :
    Imp.sepCollect (σ := σ) (fun p => liftR (mt d p)) fuel q s skip min =
      liftR (step G fuel mt pr d (.sepCollect q s skip min)) := by
  funext st o
  have h := imp_sepLoop mt d q s skip (fun _ => true) (fun c => decide (c ≥ min)) .sepCollect o st fuel 0 ⟨o, 0⟩ o
  simp only [decide_eq_true_eq, if_true] at h
  simp only [M.bind_pure_eq] at h
  simp only [Imp.sepCollect, M.bind_pure_eq]
  exact h

/-! ### Units and primitives -/

theorem imp_check (c : Cond ι β) (item : Nat × ι) (st : σ) (o : Nat) :
    Imp.check (fun d p => liftR (mt d p)) d c item st o =
      match check mt d o c item with
      | none => none
      | some .panic => some .panic
      | some (.ok b) => some (.done (.ok b) st o)
      | some (.err e) => some (.done (.error e) st o) := by
  cases c with
  | empty => rfl
  | fn f =>
    simp only [Imp.check, check]
    run
    rcases f d o item with (b | e | _) <;> rfl
  | regex p =>
    simp only [Imp.check, check]
    run
    rcases origAt d (o + item.1) with (d' | e | _) <;> try rfl
    dsimp only
    rcases mt d' p 0 with _ | (⟨s2, o2⟩ | ⟨e2, o2⟩ | _) <;> rfl

theorem imp_test (u : Neu ι) (c : Cond ι β) (item : Nat × ι) (g : Guard) (st : σ) (o : Nat) :
    Imp.test (fun d p => liftR (mt d p)) d u c item g st o =
      match testItem mt d o u c item with
      | none => none
      | some .panic => some .panic
      | some (.ok b) => some (.done (.ok b) g st o)
      | some (.err e) => some (.done (.error e) g st o) := by
  simp only [Imp.test, testItem]
  cases u.isMatch item.2
  · rfl
  · simp only [if_true]
    rw [GM.bind_app]
    simp only [GM.call, imp_check]
    rcases check mt d o c item with _ | (b | e | _) <;> rfl

theorem imp_scanAll (u : Neu ι) (c : Cond ι β) (g : Guard) (st : σ) (o : Nat) :
    ∀ (it : List (Nat × ι)) (cnt : Nat) (beg : Option Nat),
    Imp.scanAll (fun d p => liftR (mt d p)) d u c it beg g st o =
      match scan (testItem mt d o u c) (fun _ => true) cnt beg it with
      | none => none
      | some .panic => some .panic
      | some (.ok s) => some (.done (.ok (s.beg, s.stop)) g st o)
      | some (.err e) => some (.done (.error e) g st o)
  | [], _, _ => rfl
  | pr :: it, cnt, beg => by
    simp only [Imp.scanAll, scan, if_true]
    rw [GM.bind_app, imp_test]
    rcases testItem mt d o u c pr with _ | (b | e | _) <;> try rfl
    cases b
    · rfl
    · simp only [if_true]
      rw [imp_scanAll u c g st o it (cnt + 1)]
      cases beg <;> rfl

theorem imp_scanWhile (u : Neu ι) (c : Cond ι β) (more : Nat → Bool) (g : Guard) (st : σ) (o : Nat) :
    ∀ (it : List (Nat × ι)) (cnt : Nat) (beg : Option Nat),
    Imp.scanWhile (fun d p => liftR (mt d p)) d u c more it cnt beg g st o =
      match scan (testItem mt d o u c) more cnt beg it with
      | none => none
      | some .panic => some .panic
      | some (.ok s) => some (.done (.ok (s.cnt, s.beg, s.stop, s.rest)) g st o)
      | some (.err e) => some (.done (.error e) g st o)
  | [], _, _ => rfl
  | pr :: it, cnt, beg => by
    simp only [Imp.scanWhile, scan]
    cases more cnt
    · rfl
    · simp only [if_true]
      rw [GM.bind_app, imp_test]
      rcases testItem mt d o u c pr with _ | (b | e | _) <;> try rfl
      cases b
      · rfl
      · simp only [if_true]
        rw [imp_scanWhile u c more g st o it (cnt + 1)]
        cases beg <;> rfl

theorem imp_once (u : Neu ι) (c : Cond ι β) :
    Imp.once (σ := σ) (fun d p => liftR (mt d p)) d u c = liftR (step G fuel mt pr d (.once u c)) := by
  funext st o
  simp only [liftR, step, Imp.once, onceParse]
  run
  rcases peek d o with (it | e | _) <;> try rfl
  by_cases hl : ¬ (o ≤ blen d)
  · try run
    simp only [if_neg hl]
    try rfl
  replace hl := Decidable.not_not.mp hl
  try run
  simp only [if_pos hl]
  cases it with
  | nil => rfl
  | cons pr it =>
    run
    rw [imp_test]
    rcases testItem mt d o u c pr with _ | (b | e | _) <;> try rfl
    cases b
    · rfl
    · run
      cases calcLength (some pr.1) (it.head?.map (·.1)) (blen d - o) <;> rfl

theorem imp_optU (u : Neu ι) (c : Cond ι β) :
    Imp.optU (σ := σ) (fun d p => liftR (mt d p)) d u c = liftR (step G fuel mt pr d (.optU u c)) := by
  funext st o
  simp only [liftR, step, Imp.optU, optUParse]
  run
  by_cases hl : ¬ (o ≤ blen d)
  · try run
    simp only [if_neg hl]
    try rfl
  replace hl := Decidable.not_not.mp hl
  try run
  simp only [if_pos hl]
  run
  rcases peek d o with (it | e | _) <;> try rfl
  cases it with
  | nil => rfl
  | cons pr it =>
    run
    rw [imp_test]
    rcases testItem mt d o u c pr with _ | (b | e | _) <;> try rfl
    cases b
    · rfl
    · run
      cases calcLength (some pr.1) (it.head?.map (·.1)) (blen d - o) <;> rfl

theorem imp_many0 (u : Neu ι) (c : Cond ι β) :
    Imp.many0 (σ := σ) (fun d p => liftR (mt d p)) d u c = liftR (step G fuel mt pr d (.many0 u c)) := by
  funext st o
  simp only [liftR, step, Imp.many0, many0Parse]
  run
  by_cases hl : ¬ (o ≤ blen d)
  · try run
    simp only [if_neg hl]
    try rfl
  replace hl := Decidable.not_not.mp hl
  try run
  simp only [if_pos hl]
  run
  rcases peek d o with (it | e | _) <;> try rfl
  run
  rw [imp_scanAll mt d u c _ st o it 0 none]
  rcases scan (testItem mt d o u c) (fun _ => true) 0 none it with _ | (s | e | _) <;> try rfl
  dsimp only
  cases s.beg with
  | none => rfl
  | some b =>
    run
    cases calcLength (some b) s.stop (blen d - o) <;> rfl

theorem imp_many1 (u : Neu ι) (c : Cond ι β) :
    Imp.many1 (σ := σ) (fun d p => liftR (mt d p)) d u c = liftR (step G fuel mt pr d (.many1 u c)) := by
  funext st o
  simp only [liftR, step, Imp.many1, many1Parse]
  run
  rcases peek d o with (it | e | _) <;> try rfl
  by_cases hl : ¬ (o ≤ blen d)
  · try run
    simp only [if_neg hl]
    try rfl
  replace hl := Decidable.not_not.mp hl
  try run
  simp only [if_pos hl]
  run
  rw [imp_scanAll mt d u c _ st o it 0 none]
  rcases scan (testItem mt d o u c) (fun _ => true) 0 none it with _ | (s | e | _) <;> try rfl
  dsimp only
  cases s.beg with
  | none => rfl
  | some b =>
    run
    cases calcLength (some b) s.stop (blen d - o) <;> rfl

theorem imp_between (m n : Nat) (u : Neu ι) (c : Cond ι β) :
    Imp.between (σ := σ) (fun d p => liftR (mt d p)) d m n u c =
      liftR (step G fuel mt pr d (.between m n u c)) := by
  funext st o
  simp only [liftR, step, Imp.between, betweenParse]
  run
  rcases peek d o with (it | e | _) <;> try rfl
  by_cases hl : ¬ (o ≤ blen d)
  · try run
    simp only [if_neg hl]
    try rfl
  replace hl := Decidable.not_not.mp hl
  try run
  simp only [if_pos hl]
  run
  by_cases hm : ¬ (blen d - o ≥ m * u.minLength)
  · try run
    simp only [if_neg hm]
    try rfl
  replace hm := Decidable.not_not.mp hm
  try run
  simp only [if_pos hm]
  run
  rw [imp_scanWhile]
  rcases scan (testItem mt d o u c) (fun cnt => decide (cnt < n)) 0 none it with _ | (s | e | _) <;> try rfl
  dsimp only
  by_cases hc : ¬ (s.cnt ≥ m)
  · try run
    simp only [if_neg hc]
    try rfl
  replace hc := Decidable.not_not.mp hc
  try run
  simp only [if_pos hc]
  run
  cases calcLength s.beg (s.stop.or (s.rest.head?.map (·.1))) (blen d - o) <;> rfl

theorem imp_times (r : CRange) (u : Neu ι) (c : Cond ι β) :
    Imp.times (σ := σ) (fun d p => liftR (mt d p)) d r u c =
      liftR (step G fuel mt pr d (.times r u c)) := by
  funext st o
  simp only [liftR, step, Imp.times, timesParse]
  run
  rcases peek d o with (it | e | _) <;> try rfl
  by_cases hl : ¬ (o ≤ blen d)
  · try run
    simp only [if_neg hl]
    try rfl
  replace hl := Decidable.not_not.mp hl
  try run
  simp only [if_pos hl]
  run
  by_cases hm : ¬ (blen d - o ≥ r.needed u.minLength)
  · try run
    simp only [if_neg hm]
    try rfl
  replace hm := Decidable.not_not.mp hm
  try run
  simp only [if_pos hm]
  run
  rw [imp_scanWhile]
  rcases scan (testItem mt d o u c) r.more 0 none it with _ | (s | e | _) <;> try rfl
  dsimp only
  cases r.contains s.cnt
  · rfl
  · simp only [if_true]
    run
    cases calcLength s.beg (s.stop.or (s.rest.head?.map (·.1))) (blen d - o) <;> rfl

theorem imp_thenU (u v : Neu ι) (c : Cond ι β) :
    Imp.thenU (σ := σ) (fun d p => liftR (mt d p)) d u v c =
      liftR (step G fuel mt pr d (.thenU u v c)) := by
  funext st o
  simp only [liftR, step, Imp.thenU, thenUParse]
  run
  rcases peek d o with (it | e | _) <;> try rfl
  by_cases hl : ¬ (o ≤ blen d)
  · try run
    simp only [if_neg hl]
    try rfl
  replace hl := Decidable.not_not.mp hl
  try run
  simp only [if_pos hl]
  run
  by_cases hm : ¬ (blen d - o ≥ u.minLength + v.minLength)
  · try run
    simp only [if_neg hm]
    try rfl
  replace hm := Decidable.not_not.mp hm
  try run
  simp only [if_pos hm]
  rcases it with _ | ⟨p1, _ | ⟨p2, it⟩⟩ <;> try rfl
  run
  rw [imp_test]
  rcases testItem mt d o u c p1 with _ | (b | e | _) <;> try rfl
  cases b
  · rfl
  simp only [if_true]
  run
  rw [imp_test]
  rcases testItem mt d o v c p2 with _ | (b | e | _) <;> try rfl
  cases b
  · rfl
  simp only [if_true]
  run
  cases calcLength (some p1.1) (it.head?.map (·.1)) (blen d - o) <;> rfl

theorem imp_lit (l : List ι) : Imp.lit (σ := σ) d l = liftR (step G fuel mt pr d (.lit l)) := by
  funext st o
  simp only [liftR, step, Imp.lit, litParse]
  run
  by_cases hl : ¬ (o ≤ blen d)
  · try run
    simp only [if_neg hl]
    try rfl
  replace hl := Decidable.not_not.mp hl
  try run
  simp only [if_pos hl]
  run
  by_cases hm : ¬ (blen d - o ≥ blen l)
  · try run
    simp only [if_neg hm]
    try rfl
  replace hm := Decidable.not_not.mp hm
  try run
  simp only [if_pos hm]
  run
  rcases origAt d o with (r | e | _) <;> try rfl
  dsimp only
  cases l.isPrefixOf r <;> rfl

theorem imp_consume (n : Nat) : Imp.consume (σ := σ) d n = liftR (step G fuel mt pr d (.consume n)) := by
  funext st o
  simp only [liftR, step, Imp.consume, consumeParse]
  run
  by_cases hl : ¬ (o ≤ blen d)
  · try run
    simp only [if_neg hl]
    try rfl
  replace hl := Decidable.not_not.mp hl
  try run
  simp only [if_pos hl]
  run
  by_cases hm : blen d - o ≥ n
  · simp only [if_pos hm]
    rfl
  · simp only [if_neg hm]
    rfl

theorem imp_start : Imp.start (σ := σ) = liftR (step G fuel mt pr d .start) := by
  funext st o
  simp only [liftR, step, Imp.start]
  run
  by_cases hm : o = 0
  · simp only [if_pos hm]
    rfl
  · simp only [if_neg hm]
    rfl

theorem imp_anchorEnd : Imp.anchorEnd (σ := σ) d = liftR (step G fuel mt pr d .anchorEnd) := by
  funext st o
  simp only [liftR, step, Imp.anchorEnd]
  run
  by_cases hm : o = blen d
  · simp only [if_pos hm]
    rfl
  · simp only [if_neg hm]
    rfl

/-- One level of `try_parse`. -/
theorem imp_step (p : Pat ι β) :
    impStep (σ := σ) G fuel (fun d p => liftR (mt d p)) (fun p => liftR (pr p)) d p =
      liftR (step G fuel mt pr d p) := by
  cases p with
  | empty => rfl
  | fail => rfl
  | start => exact imp_start ..
  | anchorEnd => exact imp_anchorEnd ..
  | consume n => exact imp_consume ..
  | consumeAll => rfl
  | lit l => exact imp_lit ..
  | native f =>
    funext st o
    simp only [impStep, moveCtx, liftR, step]
    rcases f d o with (⟨s, o'⟩ | ⟨e, o'⟩ | _) <;> rfl
  | once u c => exact imp_once ..
  | many1 u c => exact imp_many1 ..
  | optU u c => exact imp_optU ..
  | many0 u c => exact imp_many0 ..
  | between m n u c => exact imp_between ..
  | times r u c => exact imp_times ..
  | thenU u v c => exact imp_thenU ..
  | assert q v => exact imp_assert ..
  | thn a b => exact imp_thn ..
  | ifThen a t b => exact imp_ifThen ..
  | pre a b => exact imp_pre ..
  | suf a b => exact imp_suf ..
  | enclose a b c => exact imp_enclose ..
  | sepOnce a b c => exact imp_sepOnce ..
  | or a b => exact imp_or ..
  | longest a b => exact imp_longest ..
  | opt q => exact imp_opt ..
  | choice e items => exact imp_choice ..
  | ltm e items => exact imp_ltm ..
  | rep q r => exact imp_rep ..
  | rep2 q m n => exact imp_rep2 ..
  | collect q min => exact imp_collect ..
  | sep q s skip min => exact imp_sep ..
  | sep2 q s skip m n => exact imp_sep2 ..
  | sepCollect q s skip min => exact imp_sepCollect ..
  | branch t a b => exact imp_branch ..
  | map q f => rfl
  | pat q => rfl
  | build q f => exact imp_build ..
  | dthen q f => rfl
  | cell i =>
    funext st o
    simp only [impStep, liftR, step]
    cases G i <;> rfl

theorem imp_mat (pr : Option (Pat ι β) → List ι → Pat ι β → Nat → Option (Res Span))
    (pol : Option (Pat ι β)) (d : List ι) (p : Pat ι β) :
    impMat (σ := σ) (fun pol d p => liftR (pr pol d p)) pol d p = liftR (matWith pr pol d p) := by
  funext st o
  cases pol with
  | none => rfl
  | some q =>
    simp only [impMat, matWith]
    run
    simp only [matWith]
    run
    rcases pr none d q o with _ | (⟨s, o'⟩ | ⟨e, o'⟩ | _) <;> rfl

theorem imp_parse (G : Rules ι β) : ∀ (n : Nat) (pol : Option (Pat ι β)) (d : List ι) (p : Pat ι β),
    impParse (σ := σ) G n pol d p = liftR (parse G n pol d p)
  | 0, _, _, _ => rfl
  | n + 1, pol, d, p => by
    have ih : impParse (σ := σ) G n = fun pol d p => liftR (parse G n pol d p) := by
      funext pol d p
      exact imp_parse G n pol d p
    simp only [impParse, ih]
    have hm : impMat (σ := σ) (fun pol d p => liftR (parse G n pol d p)) pol =
        fun d p => liftR (matWith (parse G n) pol d p) := by
      funext d p
      exact imp_mat _ _ _ _
    rw [hm]
    exact imp_step G n _ _ d p

end Parse
section Construct
variable (G : Rules ι β) (H : Handler ι β σ) (fuel : Nat)
  (mt : Pat ι β → Nat → Option (Res Span)) (leaf : Option (Res Span))
  (cn : Pat ι β → σ → Nat → Option (CRes σ (Val β))) (d : List ι)

theorem imp_thnC (a b : Pat ι β) :
    Imp.thnC (fun p => liftC (cn p)) a b = liftC (conStep G H fuel mt leaf cn d (.thn a b)) := by
  funext st o
  run
  simp only [Imp.thnC, conStep]
  run
  rcases cn a st o with _ | (⟨v1, st1, o1⟩ | ⟨e1, st1, o1⟩ | _) <;> try rfl
  try run
  rcases cn b st1 o1 with _ | (⟨v2, st2, o2⟩ | ⟨e2, st2, o2⟩ | _) <;> try rfl
  try run

theorem imp_ifThenC (a t b : Pat ι β) :
    Imp.ifThenC (fun p => liftR (mt p)) (fun p => liftC (cn p)) a t b = liftC (conStep G H fuel mt leaf cn d (.ifThen a t b)) := by
  funext st o
  run
  simp only [Imp.ifThenC, conStep]
  run
  rcases cn a st o with _ | (⟨v1, st1, o1⟩ | ⟨e1, st1, o1⟩ | _) <;> try rfl
  try run
  rcases mt t o1 with _ | (⟨s2, o2⟩ | ⟨e2, o2⟩ | _) <;> try rfl
  try run
  rcases cn b st1 o2 with _ | (⟨v3, st3, o3⟩ | ⟨e3, st3, o3⟩ | _) <;> try rfl
  try run

theorem imp_preC (a b : Pat ι β) :
    Imp.preC (fun p => liftR (mt p)) (fun p => liftC (cn p)) a b = liftC (conStep G H fuel mt leaf cn d (.pre a b)) := by
  funext st o
  run
  simp only [Imp.preC, conStep]
  run
  rcases mt a o with _ | (⟨s1, o1⟩ | ⟨e1, o1⟩ | _) <;> try rfl
  try run
  rcases cn b st o1 with _ | (⟨v2, st2, o2⟩ | ⟨e2, st2, o2⟩ | _) <;> try rfl
  try run

theorem imp_sufC (a b : Pat ι β) :
    Imp.sufC (fun p => liftR (mt p)) (fun p => liftC (cn p)) a b = liftC (conStep G H fuel mt leaf cn d (.suf a b)) := by
  funext st o
  run
  simp only [Imp.sufC, conStep]
  run
  rcases cn a st o with _ | (⟨v1, st1, o1⟩ | ⟨e1, st1, o1⟩ | _) <;> try rfl
  try run
  rcases mt b o1 with _ | (⟨s2, o2⟩ | ⟨e2, o2⟩ | _) <;> try rfl
  try run

theorem imp_encloseC (a b c : Pat ι β) :
    Imp.encloseC (fun p => liftR (mt p)) (fun p => liftC (cn p)) a b c = liftC (conStep G H fuel mt leaf cn d (.enclose a b c)) := by
  funext st o
  run
  simp only [Imp.encloseC, conStep]
  run
  rcases mt a o with _ | (⟨s1, o1⟩ | ⟨e1, o1⟩ | _) <;> try rfl
  try run
  rcases cn b st o1 with _ | (⟨v2, st2, o2⟩ | ⟨e2, st2, o2⟩ | _) <;> try rfl
  try run
  rcases mt c o2 with _ | (⟨s3, o3⟩ | ⟨e3, o3⟩ | _) <;> try rfl
  try run

theorem imp_sepOnceC (a b c : Pat ι β) :
    Imp.sepOnceC (fun p => liftR (mt p)) (fun p => liftC (cn p)) a b c = liftC (conStep G H fuel mt leaf cn d (.sepOnce a b c)) := by
  funext st o
  run
  simp only [Imp.sepOnceC, conStep]
  run
  rcases cn a st o with _ | (⟨v1, st1, o1⟩ | ⟨e1, st1, o1⟩ | _) <;> try rfl
  try run
  rcases mt b o1 with _ | (⟨s2, o2⟩ | ⟨e2, o2⟩ | _) <;> try rfl
  try run
  rcases cn c st1 o2 with _ | (⟨v3, st3, o3⟩ | ⟨e3, st3, o3⟩ | _) <;> try rfl
  try run

theorem imp_orC (a b : Pat ι β) :
    Imp.orC (fun p => liftC (cn p)) a b = liftC (conStep G H fuel mt leaf cn d (.or a b)) := by
  funext st o
  run
  simp only [Imp.orC, conStep]
  run
  rcases cn a st o with _ | (⟨v1, st1, o1⟩ | ⟨e1, st1, o1⟩ | _) <;> try rfl
  try run
  rcases cn b st1 o with _ | (⟨v2, st2, o2⟩ | ⟨e2, st2, o2⟩ | _) <;> try rfl
  try run

theorem imp_longestC (a b : Pat ι β) :
    Imp.longestC (fun p => liftC (cn p)) a b = liftC (conStep G H fuel mt leaf cn d (.longest a b)) := by
  funext st o
  run
  simp only [Imp.longestC, conStep]
  run
  rcases cn a st o with _ | (⟨v1, st1, o1⟩ | ⟨e1, st1, o1⟩ | _) <;> try rfl
  · run
    rcases cn b st1 o with _ | (⟨v2, st2, o2⟩ | ⟨e2, st2, o2⟩ | _) <;> try rfl
    by_cases h : o1 ≥ o2
    · simp only [if_pos h]
      rfl
    · simp only [if_neg h]
      rfl
  · run
    rcases cn b st1 o with _ | (⟨v2, st2, o2⟩ | ⟨e2, st2, o2⟩ | _) <;> rfl
theorem imp_optC (q : Pat ι β) :
    Imp.optC (fun p => liftC (cn p)) q = liftC (conStep G H fuel mt leaf cn d (.opt q)) := by
  funext st o
  run
  simp only [Imp.optC, conStep]
  run
  rcases cn q st o with _ | (⟨v1, st1, o1⟩ | ⟨e1, st1, o1⟩ | _) <;> try rfl
  try run

theorem imp_mapC (q : Pat ι β) (f : Val β → Out (Val β)) :
    Imp.mapC (fun p => liftC (cn p)) q f = liftC (conStep G H fuel mt leaf cn d (.map q f)) := by
  funext st o
  run
  simp only [Imp.mapC, conStep]
  run
  rcases cn q st o with _ | (⟨v1, st1, o1⟩ | ⟨e1, st1, o1⟩ | _) <;> try rfl
  try run
  rcases f v1 with (w | e | _) <;> rfl
theorem imp_dthenC (q : Pat ι β) (f : List ι → Nat → Val β → Res (Pat ι β)) :
    Imp.dthenC (fun p => liftC (cn p)) d q f = liftC (conStep G H fuel mt leaf cn d (.dthen q f)) := by
  funext st o
  run
  simp only [Imp.dthenC, conStep]
  run
  rcases cn q st o with _ | (⟨v1, st1, o1⟩ | ⟨e1, st1, o1⟩ | _) <;> try rfl
  try run
  rcases f d o1 v1 with (⟨p, o2⟩ | ⟨e2, o2⟩ | _) <;> try rfl
  try run
  rcases cn p st1 o2 with _ | (⟨v3, st3, o3⟩ | ⟨e3, st3, o3⟩ | _) <;> try rfl
  try run

theorem imp_branchC (test : List ι → Nat → Out Bool) (a b : Pat ι β) :
    Imp.branchC (fun p => liftC (cn p)) d test a b = liftC (conStep G H fuel mt leaf cn d (.branch test a b)) := by
  funext st o
  run
  simp only [Imp.branchC, conStep]
  run
  rcases test d o with (t | e | _) <;> try rfl
  cases t
  · run
    rcases cn b st o with _ | (⟨s1, st1, o1⟩ | ⟨e1, st1, o1⟩ | _) <;> rfl
  · run
    rcases cn a st o with _ | (⟨s1, st1, o1⟩ | ⟨e1, st1, o1⟩ | _) <;> rfl

theorem imp_invoke (m : Nat → Option (Res Span)) :
    Imp.invoke H d (liftR m) = liftC (fun st o => invokeK H d st (m o)) := by
  funext st o
  simp only [liftC, Imp.invoke, invokeK]
  run
  rcases m o with _ | (⟨s, o1⟩ | ⟨e, o1⟩ | _) <;> try rfl
  dsimp only
  rcases H d o1 s st with ⟨(b | e | _), st'⟩ <;> rfl

theorem imp_choiceC_loop (e : Error) (beg : Nat) :
    ∀ (items : List (Pat ι β × Option (Val β))) (st : σ) (o : Nat),
    forIn_ (fun item (ret : Except Error (Val β)) => do
      let r ← inspectErr (← liftC (cn item.1)) beg
      match r with
      | .ok val => return (.ok (tagged item.2 val), false)
      | .error _ => return (ret, true)) items (.error e) st o =
    liftC (conChoice cn e beg items) st o
  | [], _, _ => rfl
  | it :: items, st, o => by
    simp only [forIn_]
    run
    simp only [conChoice]
    run
    rcases cn it.1 st o with _ | (⟨v1, st1, o1⟩ | ⟨e1, st1, o1⟩ | _) <;> try rfl
    exact imp_choiceC_loop e beg items st1 beg

theorem imp_choiceC (e : Error) (items : List (Pat ι β × Option (Val β))) :
    Imp.choiceC (fun p => liftC (cn p)) e items = liftC (conStep G H fuel mt leaf cn d (.choice e items)) := by
  funext st o
  exact imp_choiceC_loop cn e o items st o

theorem imp_ltmC_loop (e : Error) (beg : Nat) :
    ∀ (items : List (Pat ι β × Option (Val β))) (ret : Option (Val β × Option (Val β))) (stop : Nat)
      (st : σ) (o : Nat),
    (forIn_ (fun item (x : Option (Val β × Option (Val β)) × Nat) => do
      setOffset beg
      match ← liftC (cn item.1) with
      | .ok val =>
        if (← offset) > x.2 then return ((some (val, item.2), ← offset), true)
        else return ((x.1, x.2), true)
      | .error _ => return ((x.1, x.2), true)) items (ret, stop) >>= fun x =>
      match x.1 with
      | some (v, k) => pure (.ok (tagged k v))
      | none => pure (.error e)) st o =
    liftC (conLtm cn e beg items (ret.map fun x => tagged x.2 x.1) stop) st o
  | [], ret, stop, st, o => by cases ret <;> rfl
  | it :: items, ret, stop, st, o => by
    simp only [forIn_]
    run
    simp only [conLtm]
    run
    rcases cn it.1 st beg with _ | (⟨v1, st1, o1⟩ | ⟨e1, st1, o1⟩ | _) <;> try rfl
    · run
      by_cases h : o1 > stop
      · simp only [if_pos h]
        exact imp_ltmC_loop e beg items (some (v1, it.2)) o1 st1 o1
      · simp only [if_neg h]
        exact imp_ltmC_loop e beg items ret stop st1 o1
    · exact imp_ltmC_loop e beg items ret stop st1 o1

theorem imp_ltmC (e : Error) (items : List (Pat ι β × Option (Val β))) :
    Imp.ltmC (fun p => liftC (cn p)) e items = liftC (conStep G H fuel mt leaf cn d (.ltm e items)) := by
  funext st o
  exact imp_ltmC_loop cn e o items none o st o

theorem imp_conRep (q : Pat ι β) (more ok : Nat → Bool) (e : Error) (beg : Nat) :
    ∀ (fuel cnt : Nat) (vals : List (Val β)) (st : σ) (o : Nat),
    (loop (fun (x : Nat × List (Val β)) => do
      if more x.1 then
        match ← liftC (cn q) with
        | .ok val => return ((x.1 + 1, x.2 ++ [val]), true)
        | .error _ => return ((x.1, x.2), false)
      else return ((x.1, x.2), false)) fuel (cnt, vals) >>= fun x =>
      inspectErr (if ok x.1 then .ok (Val.list x.2) else .error e) beg) st o =
    liftC (conRep cn q more (fun _ => true) (conFinish ok e beg Val.list) fuel cnt vals) st o
  | 0, _, _, _, _ => rfl
  | fuel + 1, cnt, vals, st, o => by
    simp only [loop]
    run
    simp only [conRep]
    run
    cases more cnt
    · simp only [Bool.false_eq_true, if_false, conFinish]
      run
      cases ok cnt <;> rfl
    · simp only [if_true]
      run
      rcases cn q st o with _ | (⟨v1, st1, o1⟩ | ⟨e1, st1, o1⟩ | _) <;> try rfl
      · exact imp_conRep q more ok e beg fuel (cnt + 1) (vals ++ [v1]) st1 o1
      · simp only [conFinish]
        run
        cases ok cnt <;> rfl

theorem imp_repC (q : Pat ι β) (r : CRange) :
    Imp.repC (fun p => liftC (cn p)) fuel q r = liftC (conStep G H fuel mt leaf cn d (.rep q r)) := by
  funext st o
  exact imp_conRep cn q r.more r.contains .repeat_ o fuel 0 [] st o

theorem imp_collectC (q : Pat ι β) (min : Nat) :
    Imp.collectC (fun p => liftC (cn p)) fuel q min =
      liftC (conStep G H fuel mt leaf cn d (.collect q min)) := by
  funext st o
  have h := imp_conRep cn q (fun _ => true) (fun c => decide (c ≥ min)) .collect o fuel 0 [] st o
  simp only [decide_eq_true_eq, if_true] at h
  exact h

/-- The array after `vals.length` assignments. -/
def slots (n : Nat) (vals : List (Val β)) : List (Val β) :=
  vals.map .some ++ List.replicate (n - vals.length) .none

theorem slots_length (n : Nat) (vals : List (Val β)) (h : vals.length ≤ n) : (slots n vals).length = n := by
  simp only [slots, List.length_append, List.length_map, List.length_replicate]
  omega

theorem slots_set (n : Nat) (vals : List (Val β)) (v : Val β) (h : vals.length < n) :
    (slots n vals).set vals.length (.some v) = slots n (vals ++ [v]) := by
  obtain ⟨k, hk⟩ : ∃ k, n - vals.length = k + 1 := ⟨n - vals.length - 1, by omega⟩
  have hk' : n - (vals ++ [v]).length = k := by
    simp only [List.length_append, List.length_cons, List.length_nil]
    omega
  simp only [slots, hk, hk', List.replicate_succ, List.map_append, List.map_cons, List.map_nil,
    List.append_assoc, List.cons_append, List.nil_append]
  have := List.set_append_right (s := vals.map Val.some) (t := Val.none :: List.replicate k Val.none)
    vals.length (Val.some v) (by simp)
  rw [this]
  simp

theorem slots_setAt (n : Nat) (vals : List (Val β)) (v : Val β) (h : vals.length ≤ n) (st : σ) (o : Nat) :
    setAt (slots n vals) vals.length v st o =
      if vals.length < n then some (.done (slots n (vals ++ [v])) st o) else some .panic := by
  simp only [setAt, slots_length n vals h]
  by_cases hn : vals.length < n
  · simp only [if_pos hn, slots_set n vals v hn]
    rfl
  · simp only [if_neg hn]
    rfl

theorem imp_conRep2 (q : Pat ι β) (n : Nat) (ok : Nat → Bool) (e : Error) (beg : Nat) :
    ∀ (fuel : Nat) (vals : List (Val β)) (st : σ) (o : Nat), vals.length ≤ n →
    (loop (fun (x : Nat × List (Val β)) => do
      if x.1 ≤ n then
        match ← liftC (cn q) with
        | .ok val => return ((x.1 + 1, ← setAt x.2 x.1 val), true)
        | .error _ => return ((x.1, x.2), false)
      else return ((x.1, x.2), false)) fuel (vals.length, slots n vals) >>= fun x =>
      inspectErr (if ok x.1 then .ok (Val.list x.2) else .error e) beg) st o =
    liftC (conRep cn q (fun c => decide (c ≤ n)) (fun c => decide (c < n))
      (conFinish ok e beg (padded n)) fuel vals.length vals) st o
  | 0, _, _, _, _ => rfl
  | fuel + 1, vals, st, o, hv => by
    simp only [loop]
    run
    simp only [conRep]
    run
    simp only [decide_eq_true_eq, if_pos hv]
    run
    rcases cn q st o with _ | (⟨v1, st1, o1⟩ | ⟨e1, st1, o1⟩ | _) <;> try rfl
    · run
      simp only [slots_setAt n vals v1 hv]
      by_cases hn : vals.length < n
      · simp only [if_pos hn]
        have hl : (vals ++ [v1]).length = vals.length + 1 := by simp
        have := imp_conRep2 q n ok e beg fuel (vals ++ [v1]) st1 o1 (by omega)
        rw [hl] at this
        exact this
      · simp only [if_neg hn]
    · simp only [conFinish]
      run
      cases ok vals.length <;> rfl

theorem imp_rep2C (q : Pat ι β) (m n : Nat) :
    Imp.rep2C (fun p => liftC (cn p)) fuel q m n =
      liftC (conStep G H fuel mt leaf cn d (.rep2 q m n)) := by
  funext st o
  have h := imp_conRep2 cn q n (fun c => decide (m ≤ c) && decide (c ≤ n)) .repeat2 o fuel [] st o (Nat.zero_le _)
  simp only [decide_eq_true_eq, Bool.and_eq_true] at h
  exact h

theorem imp_sepC_loop (q s : Pat ι β) (skip : Bool) (ok : Nat → Bool) (e : Error) (beg : Nat) :
    ∀ (fuel : Nat) (vals : List (Val β)) (st : σ) (o : Nat),
    (loop (fun (vals : List (Val β)) => do
      match ← liftC (cn q) with
      | .ok val =>
        let sSpan ← liftR (mt s)
        return (if isOk sSpan || skip then vals ++ [val] else vals, isOk sSpan)
      | .error _ => return (vals, false)) fuel vals >>= fun vals =>
      inspectErr (if ok vals.length then .ok (Val.list vals) else .error e) beg) st o =
    liftC (conSep cn (mt s) q skip (fun _ => true) (fun _ => true)
      (conFinish ok e beg Val.list) fuel vals.length vals) st o
  | 0, _, _, _ => rfl
  | fuel + 1, vals, st, o => by
    simp only [loop]
    run
    simp only [conSep]
    run
    rcases cn q st o with _ | (⟨v1, st1, o1⟩ | ⟨e1, st1, o1⟩ | _) <;> try rfl
    · run
      rcases mt s o1 with _ | (⟨s2, o2⟩ | ⟨e2, o2⟩ | _) <;> try rfl
      · have := imp_sepC_loop q s skip ok e beg fuel (vals ++ [v1]) st1 o2
        have hl : (vals ++ [v1]).length = vals.length + 1 := by simp
        rw [hl] at this
        exact this
      · cases skip
        · simp only [conFinish]
          run
          cases ok vals.length <;> rfl
        · have hl : (vals ++ [v1]).length = vals.length + 1 := by simp
          simp only [conFinish]
          run
          simp only [hl]
          cases ok (vals.length + 1) <;> rfl
    · simp only [conFinish]
      run
      cases ok vals.length <;> rfl

theorem imp_sepC (q s : Pat ι β) (skip : Bool) (min : Nat) :
    Imp.sepC (fun p => liftR (mt p)) (fun p => liftC (cn p)) fuel q s skip min =
      liftC (conStep G H fuel mt leaf cn d (.sep q s skip min)) := by
  funext st o
  have h := imp_sepC_loop mt cn q s skip (fun c => decide (c ≥ min)) .separate o fuel [] st o
  simp only [decide_eq_true_eq] at h
  exact h

theorem imp_sep2C_loop (q s : Pat ι β) (skip : Bool) (n : Nat) (ok : Nat → Bool) (e : Error) (beg : Nat) :
    ∀ (fuel : Nat) (vals : List (Val β)) (st : σ) (o : Nat), vals.length ≤ n →
    (loop (fun (x : Nat × List (Val β)) => do
      if x.1 ≤ n then
        match ← liftC (cn q) with
        | .ok val =>
          let sSpan ← liftR (mt s)
          if isOk sSpan || skip then
            return ((x.1 + 1, ← setAt x.2 x.1 val), isOk sSpan)
          else return ((x.1, x.2), isOk sSpan)
        | .error _ => return ((x.1, x.2), false)
      else return ((x.1, x.2), false)) fuel (vals.length, slots n vals) >>= fun x =>
      inspectErr (if ok x.1 then .ok (Val.list x.2) else .error e) beg) st o =
    liftC (conSep cn (mt s) q skip (fun c => decide (c ≤ n)) (fun c => decide (c < n))
      (conFinish ok e beg (padded n)) fuel vals.length vals) st o
  | 0, _, _, _, _ => rfl
  | fuel + 1, vals, st, o, hv => by
    simp only [loop]
    run
    simp only [conSep]
    run
    simp only [decide_eq_true_eq, if_pos hv]
    run
    rcases cn q st o with _ | (⟨v1, st1, o1⟩ | ⟨e1, st1, o1⟩ | _) <;> try rfl
    · run
      rcases mt s o1 with _ | (⟨s2, o2⟩ | ⟨e2, o2⟩ | _) <;> try rfl
      · run
        simp only [slots_setAt n vals v1 hv]
        by_cases hn : vals.length < n
        · simp only [if_pos hn]
          have hl : (vals ++ [v1]).length = vals.length + 1 := by simp
          have := imp_sep2C_loop q s skip n ok e beg fuel (vals ++ [v1]) st1 o2 (by omega)
          rw [hl] at this
          exact this
        · simp only [if_neg hn]
      · cases skip
        · simp only [conFinish]
          run
          cases ok vals.length <;> rfl
        · simp only [conFinish]
          run
          simp only [slots_setAt n vals v1 hv]
          by_cases hn : vals.length < n
          · simp only [if_pos hn]
            run
            cases ok (vals.length + 1) <;> rfl
          · simp only [if_neg hn]
    · simp only [conFinish]
      run
      cases ok vals.length <;> rfl

theorem imp_sep2C (q s : Pat ι β) (skip : Bool) (m n : Nat) :
    Imp.sep2C (fun p => liftR (mt p)) (fun p => liftC (cn p)) fuel q s skip m n =
      liftC (conStep G H fuel mt leaf cn d (.sep2 q s skip m n)) := by
  funext st o
  have h := imp_sep2C_loop mt cn q s skip n (fun c => decide (c ≥ m)) .separate2 o fuel [] st o (Nat.zero_le _)
  simp only [decide_eq_true_eq] at h
  exact h

theorem imp_sepCollectC_loop (q s : Pat ι β) (skip : Bool) (ok : Nat → Bool) (e : Error) (beg : Nat) :
    ∀ (fuel cnt : Nat) (ended : Bool) (vals : List (Val β)) (st : σ) (o : Nat),
    (loop (fun (x : Nat × Bool × List (Val β)) => do
      match ← liftC (cn q) with
      | .ok ret =>
        let sSpan ← liftR (mt s)
        if !x.2.1 then
          let ended := if isOk sSpan then x.2.1 else true
          if isOk sSpan || skip then return ((x.1 + 1, ended, x.2.2 ++ [ret]), true)
          else return ((x.1, ended, x.2.2), false)
        else return ((x.1, x.2.1, x.2.2), false)
      | .error _ => return ((x.1, x.2.1, x.2.2), false)) fuel (cnt, ended, vals) >>= fun x =>
      inspectErr (if ok x.1 then .ok (Val.list x.2.2) else .error e) beg) st o =
    liftC (conSepCollect cn (mt s) q skip (conFinish ok e beg Val.list) fuel ended cnt vals) st o
  | 0, _, _, _, _, _ => rfl
  | fuel + 1, cnt, ended, vals, st, o => by
    simp only [loop]
    run
    simp only [conSepCollect]
    run
    rcases cn q st o with _ | (⟨v1, st1, o1⟩ | ⟨e1, st1, o1⟩ | _) <;> try rfl
    · run
      rcases mt s o1 with _ | (⟨s2, o2⟩ | ⟨e2, o2⟩ | _) <;> try rfl
      · cases ended
        · exact imp_sepCollectC_loop q s skip ok e beg fuel (cnt + 1) false (vals ++ [v1]) st1 o2
        · simp only [conFinish]
          run
          cases ok cnt <;> rfl
      · cases ended
        · cases skip
          · simp only [conFinish]
            run
            cases ok cnt <;> rfl
          · exact imp_sepCollectC_loop q s true ok e beg fuel (cnt + 1) true (vals ++ [v1]) st1 o2
        · simp only [conFinish]
          run
          cases ok cnt <;> rfl
    · simp only [conFinish]
      run
      cases ok cnt <;> rfl

theorem imp_sepCollectC (q s : Pat ι β) (skip : Bool) (min : Nat) :
    Imp.sepCollectC (fun p => liftR (mt p)) (fun p => liftC (cn p)) fuel q s skip min =
      liftC (conStep G H fuel mt leaf cn d (.sepCollect q s skip min)) := by
  funext st o
  have h := imp_sepCollectC_loop mt cn q s skip (fun c => decide (c ≥ min)) .sepCollect o fuel 0 false [] st o
  simp only [decide_eq_true_eq] at h
  exact h

/-- One level of `construct`. -/
theorem imp_conStep (leaf : Nat → Option (Res Span)) (p : Pat ι β) :
    impConStep G H fuel (fun p => liftR (mt p)) (liftR leaf) (fun p => liftC (cn p)) d p =
      liftC (fun st o => conStep G H fuel mt (leaf o) cn d p st o) := by
  cases p with
  | empty | fail | start | anchorEnd | consume _ | consumeAll | lit _ | native _
  | once _ _ | many1 _ _ | optU _ _ | many0 _ _ | between _ _ _ _ | times _ _ _
  | thenU _ _ _ | assert _ _ | build _ _ => exact imp_invoke H d leaf
  | pat q => exact imp_invoke H d (mt q)
  | thn a b => exact imp_thnC G H fuel mt none cn d a b
  | ifThen a t b => exact imp_ifThenC G H fuel mt none cn d a t b
  | pre a b => exact imp_preC G H fuel mt none cn d a b
  | suf a b => exact imp_sufC G H fuel mt none cn d a b
  | enclose a b c => exact imp_encloseC G H fuel mt none cn d a b c
  | sepOnce a b c => exact imp_sepOnceC G H fuel mt none cn d a b c
  | or a b => exact imp_orC G H fuel mt none cn d a b
  | longest a b => exact imp_longestC G H fuel mt none cn d a b
  | opt q => exact imp_optC G H fuel mt none cn d q
  | choice e items => exact imp_choiceC G H fuel mt none cn d e items
  | ltm e items => exact imp_ltmC G H fuel mt none cn d e items
  | rep q r => exact imp_repC G H fuel mt none cn d q r
  | rep2 q m n => exact imp_rep2C G H fuel mt none cn d q m n
  | collect q min => exact imp_collectC G H fuel mt none cn d q min
  | sep q s skip min => exact imp_sepC G H fuel mt none cn d q s skip min
  | sep2 q s skip m n => exact imp_sep2C G H fuel mt none cn d q s skip m n
  | sepCollect q s skip min => exact imp_sepCollectC G H fuel mt none cn d q s skip min
  | branch t a b => exact imp_branchC G H fuel mt none cn d t a b
  | map q f => exact imp_mapC G H fuel mt none cn d q f
  | dthen q f => exact imp_dthenC G H fuel mt none cn d q f
  | cell i =>
    funext st o
    simp only [impConStep, liftC, conStep]
    cases G i <;> rfl

theorem imp_con : ∀ (n : Nat) (pol : Option (Pat ι β)) (d : List ι) (p : Pat ι β),
    impCon G H n pol d p = liftC (con G H n pol d p)
  | 0, _, _, _ => rfl
  | n + 1, pol, d, p => by
    have ih : impCon G H n pol d = fun p => liftC (con G H n pol d p) := by
      funext p
      exact imp_con n pol d p
    have hp : ∀ n, impMat (impParse (σ := σ) G n) pol d = fun p => liftR (tryMat G n pol d p) := by
      intro n
      have ih : impParse (σ := σ) G n = fun pol d p => liftR (parse G n pol d p) := by
        funext pol d p
        exact imp_parse G n pol d p
      rw [ih]
      funext p
      exact imp_mat _ _ _ _
    simp only [impCon, ih, hp]
    exact imp_conStep G H n (tryMat G n pol d) (con G H n pol d) d (tryMat G (n + 1) pol d p) p

end Construct
end Neure
