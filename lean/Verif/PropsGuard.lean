import Verif.ImpLemmas
import Verif.PropsCtorBase
/-!
# C53, C54: `CtxGuard`;  C55: the model computes what the bodies compute

A history of a guard is a list of operations, each with what the operation found.
-/

namespace Neure

set_option linter.unusedSectionVars false
set_option linter.unusedSimpArgs false

open Demo

variable {ι β σ : Type} [Item ι]

/-! ## Specification -/

/-- One use of a guard. -/
inductive GuardOp (σ : Type) where
  /-- `guard.inc(len)` -/
  | inc (len : Nat)
  /-- `guard.reset()` -/
  | reset
  /-- `guard.process_ret(ret)` -/
  | processRet (ret : Except Error Unit)
  /-- `guard.try_mat(&p)`, where matching `p` gave `ret` and left the context at `off` -/
  | tryMat (ret : Except Error Span) (st : σ) (off : Nat)
  /-- anything done with `guard.ctx()`, leaving the context at `off` -/
  | call (st : σ) (off : Nat)

/-- The guard was told of a failure. -/
def GuardOp.failed : GuardOp σ → Bool
  | .processRet (.error _) => true
  | .tryMat (.error _) _ _ => true
  | _ => false

/-- Where the operations leave the context, for a guard made at `start`; `cur` is
where it is before them. -/
def lastOffset (start : Nat) : List (GuardOp σ) → Nat → Nat
  | [], cur => cur
  | .inc len :: l, cur => lastOffset start l (cur + len)
  | .reset :: l, _ => lastOffset start l start
  | .processRet _ :: l, cur => lastOffset start l cur
  | .tryMat _ _ off :: l, _ => lastOffset start l off
  | .call _ off :: l, _ => lastOffset start l off

/-- The state the handler is left in. -/
def lastState : List (GuardOp σ) → σ → σ
  | [], st => st
  | .tryMat _ st' _ :: l, _ => lastState l st'
  | .call st' _ :: l, _ => lastState l st'
  | _ :: l, st => lastState l st

/-- The operation as a statement. -/
def GuardOp.run : GuardOp σ → GM σ Unit
  | .inc len => do let _ ← GM.inc len
  | .reset => GM.reset
  | .processRet ret => do let _ ← GM.processRet ret
  | .tryMat ret st off => do let _ ← GM.tryMat fun _ _ => some (.done ret st off)
  | .call st off => GM.call fun _ _ => some (.done () st off)

/-- A sequence of statements. -/
def runOps : List (GuardOp σ) → GM σ Unit
  | [] => pure ()
  | op :: l => do
    op.run
    runOps l

/-! ## C53 -/

theorem runOps_app (g : Guard) : ∀ (ops : List (GuardOp σ)) (st : σ) (cur : Nat) (b : Bool),
    runOps ops { g with reset := b } st cur =
      some (.done (.ok ()) { g with reset := b || ops.any GuardOp.failed } (lastState ops st)
        (lastOffset g.offset ops cur))
  | [], st, cur, b => by simp only [List.any_nil, Bool.or_false]; rfl
  | op :: l, st, cur, b => by
    simp only [runOps, GM.bind_app, List.any_cons]
    cases op with
    | inc len =>
      simp only [GuardOp.run, GM.bind_app, GM.inc, GM.pure_app, GuardOp.failed, Bool.false_or]
      exact runOps_app g l st _ b
    | reset =>
      simp only [GuardOp.run, GM.reset, GuardOp.failed, Bool.false_or]
      exact runOps_app g l st _ b
    | processRet ret =>
      cases ret with
      | ok a =>
        simp only [GuardOp.run, GM.bind_app, GM.processRet, GM.pure_app, GuardOp.failed, Bool.false_or,
          isOk_ok, if_true]
        exact runOps_app g l st _ b
      | error e =>
        simp only [GuardOp.run, GM.bind_app, GM.processRet, GM.pure_app, GuardOp.failed, Bool.true_or,
          Bool.or_true, isOk_error, Bool.false_eq_true, if_false]
        exact runOps_app g l st cur true
    | tryMat ret st' off =>
      cases ret with
      | ok a =>
        simp only [GuardOp.run, GM.bind_app, GM.tryMat, GM.pure_app, GuardOp.failed, Bool.false_or,
          isOk_ok, if_true]
        exact runOps_app g l st' _ b
      | error e =>
        simp only [GuardOp.run, GM.bind_app, GM.tryMat, GM.pure_app, GuardOp.failed, Bool.true_or,
          Bool.or_true, isOk_error, Bool.false_eq_true, if_false]
        exact runOps_app g l st' off true
    | call st' off =>
      simp only [GuardOp.run, GM.call, GuardOp.failed, Bool.false_or]
      exact runOps_app g l st' _ b

/-- **C53**: a guard made at offset `o` and used in any way: when it is dropped the
context is at `o` again if the guard was told of any failure, whatever came after
that failure; otherwise it is where the last operation left it. -/
theorem C53_guard_drop (ops : List (GuardOp σ)) (st : σ) (o : Nat) :
    guarded (runOps ops) st o =
      some (.done (.ok ()) (lastState ops st)
        (if ops.any GuardOp.failed then o else lastOffset o ops o)) := by
  have h := runOps_app (⟨o, false⟩ : Guard) ops st o false
  simp only [guarded]
  rw [h]
  simp only [Bool.false_or]

/-- A failure, then a success that consumes input, then more input: still rolled
back. -/
example : guarded (runOps [.tryMat (.error .literal) () 4, .tryMat (.ok ⟨4, 3⟩) () 7, .inc 2]) () 3 =
    some (.done (.ok ()) () 3) := rfl

/-- Only successes: not rolled back. -/
example : guarded (runOps [.tryMat (.ok ⟨3, 1⟩) () 4, .processRet (.ok ()), .inc 2]) () 3 =
    some (.done (.ok ()) () 6) := rfl

/-- **C53**: leaving the function early with `?` drops the guard as well; what
matters is only what the guard was told, not the error returned: an error that was
not given to the guard does not roll back. -/
theorem C53_early_return (ops more : List (GuardOp σ)) (e : Error) (st : σ) (o : Nat) :
    guarded (do runOps ops; GM.try_ (.error e : Except Error Unit); runOps more) st o =
      some (.done (.error e) (lastState ops st)
        (if ops.any GuardOp.failed then o else lastOffset o ops o)) := by
  have h := runOps_app (⟨o, false⟩ : Guard) ops st o false
  simp only [guarded, GM.bind_app]
  rw [h]
  simp only [Bool.false_or, GM.try_]

/-- The closure given to `dthen` fails after two bytes were consumed: they stay
consumed. -/
example : guarded (do runOps [.tryMat (.ok ⟨3, 2⟩) () 5]; GM.try_ (.error (.uid 7) : Except Error Unit); runOps [])
    () 3 = some (.done (.error (.uid 7)) () 5) := rfl

/-- **C53**: `beg()` is always the offset the guard was made at and `end()` the
present offset. -/
theorem C53_beg_end (ops : List (GuardOp σ)) (st : σ) (o : Nat) :
    guarded (do runOps ops; let b ← GM.beg; let e ← GM.end_; return (b, e)) st o =
      some (.done (.ok (o, lastOffset o ops o)) (lastState ops st)
        (if ops.any GuardOp.failed then o else lastOffset o ops o)) := by
  have h := runOps_app (⟨o, false⟩ : Guard) ops st o false
  simp only [guarded, GM.bind_app]
  rw [h]
  simp only [Bool.false_or, GM.beg, GM.end_, GM.pure_app]

/-- **C53**: a guard made inside the life of another: dropping it restores the
offset *it* was made at, and the outer guard is not told. -/
theorem C53_nested (pre inner post : List (GuardOp σ)) (st : σ) (o : Nat) :
    guarded (do runOps pre; let _ ← GM.call (guarded (runOps inner)); runOps post) st o =
      let mid := lastOffset o pre o
      let stop := if inner.any GuardOp.failed then mid else lastOffset mid inner mid
      some (.done (.ok ()) (lastState post (lastState inner (lastState pre st)))
        (if pre.any GuardOp.failed || post.any GuardOp.failed then o else lastOffset o post stop)) := by
  have h := runOps_app (⟨o, false⟩ : Guard) pre st o false
  have h3 := runOps_app (⟨o, false⟩ : Guard) post (lastState inner (lastState pre st))
    (if inner.any GuardOp.failed then lastOffset o pre o
      else lastOffset (lastOffset o pre o) inner (lastOffset o pre o)) (false || pre.any GuardOp.failed)
  rw [guarded, GM.bind_app, h]
  dsimp only
  rw [GM.bind_app, GM.call, C53_guard_drop]
  dsimp only
  rw [h3]
  simp only [Bool.false_or]

/-- `IfThen`: the test consumes two bytes and fails; only those are given back. -/
example : guarded (do
    runOps [.tryMat (.ok ⟨3, 2⟩) () 5]
    let _ ← GM.call (guarded (runOps [.tryMat (.error .literal) () 7]))
    runOps []) () 3 = some (.done (.ok ()) () 5) := rfl

/-! ## C54 -/

/-- **C54** (partial): `inc(len)` advances by `len` and returns the span of these
bytes, provided the context is still where the guard was made.  Missing: the same
after the context has moved, which is false (next theorem). -/
theorem C54_guard_inc_partial (ops : List (GuardOp σ)) (len : Nat) (st : σ) (o : Nat)
    (hat : lastOffset o ops o = o) (hok : ops.any GuardOp.failed = false) :
    guarded (do runOps ops; GM.inc len) st o =
      some (.done (.ok ⟨lastOffset o ops o, len⟩) (lastState ops st) (lastOffset o ops o + len)) := by
  have h := runOps_app (⟨o, false⟩ : Guard) ops st o false
  simp only [guarded, GM.bind_app]
  rw [h]
  simp only [hok, Bool.false_or, GM.inc, hat, Bool.false_eq_true, if_false]

example : guarded (do runOps [.call () 6, .reset]; GM.inc 2) () 3 = some (.done (.ok ⟨3, 2⟩) () 5) :=
  C54_guard_inc_partial [.call () 6, .reset] 2 () 3 rfl rfl

/-- **C54**: after any operations `inc(len)` advances by `len`, and the span it
returns begins where the guard was made. -/
theorem C54_guard_inc_span (ops : List (GuardOp σ)) (len : Nat) (st : σ) (o : Nat)
    (hok : ops.any GuardOp.failed = false) :
    guarded (do runOps ops; GM.inc len) st o =
      some (.done (.ok ⟨o, len⟩) (lastState ops st) (lastOffset o ops o + len)) := by
  have h := runOps_app (⟨o, false⟩ : Guard) ops st o false
  simp only [guarded, GM.bind_app]
  rw [h]
  simp only [hok, Bool.false_or, GM.inc, Bool.false_eq_true, if_false]

/-- **C54** is false in general: after a match of two bytes through the guard,
`inc(1)` advances over byte 2 but returns the span of byte 0. -/
theorem C54_guard_inc_counterexample :
    ¬ ∀ (ops : List (GuardOp Unit)) (len o : Nat), ops.any GuardOp.failed = false →
      guarded (do runOps ops; GM.inc len) () o =
        some (.done (.ok ⟨lastOffset o ops o, len⟩) (lastState ops ()) (lastOffset o ops o + len)) := by
  intro h
  have := h [.tryMat (.ok ⟨0, 2⟩) () 2] 1 0 rfl
  rw [C54_guard_inc_span _ _ _ _ rfl] at this
  simp [lastOffset] at this

/-! ## C55 -/

section
variable {G : Rules ι β} {H : Handler ι β σ} {pol : Option (Pat ι β)} {d : List ι}

theorem liftR_ok {α : Type} {r : Nat → Option (Res α)} {st st' : σ} {o o' : Nat} {a : α} :
    liftR r st o = some (.done (.ok a) st' o') ↔ r o = some (.ok a o') ∧ st' = st := by
  simp only [liftR]
  rcases r o with _ | (⟨s, o1⟩ | ⟨e, o1⟩ | _) <;> simp
  grind

theorem liftR_error {α : Type} {r : Nat → Option (Res α)} {st st' : σ} {o o' : Nat} {e : Error} :
    liftR r st o = some (.done (.error e) st' o') ↔ r o = some (.err e o') ∧ st' = st := by
  simp only [liftR]
  rcases r o with _ | (⟨s, o1⟩ | ⟨e, o1⟩ | _) <;> simp
  grind

theorem liftR_panic {α : Type} {r : Nat → Option (Res α)} {st : σ} {o : Nat} :
    liftR r st o = some .panic ↔ r o = some .panic := by
  simp only [liftR]
  rcases r o with _ | (⟨s, o1⟩ | ⟨e, o1⟩ | _) <;> simp

theorem impMat_eq (n : Nat) (p : Pat ι β) :
    impMat (σ := σ) (impParse G n) pol d p = liftR (tryMat G n pol d p) := by
  have ih : impParse (σ := σ) G n = fun pol d p => liftR (parse G n pol d p) := by
    funext pol d p
    exact imp_parse G n pol d p
  rw [ih]
  exact imp_mat _ _ _ _

/-- **C55**: `ctx.try_mat(&p)`, run statement by statement over the mutable offset
with its guards, resets, early returns and loops, succeeds with a span and a final
offset exactly when the relation `Runs` used in all the other theorems says so. -/
theorem C55_try_mat_ok (p : Pat ι β) (st st' : σ) (o o' : Nat) (s : Span) :
    (∃ n, impMat (impParse G n) pol d p st o = some (.done (.ok s) st' o')) ↔
      Runs G pol d p o (.ok s o') ∧ st' = st := by
  simp only [impMat_eq, liftR_ok, Runs, exists_and_right]

theorem C55_try_mat_err (p : Pat ι β) (st st' : σ) (o o' : Nat) (e : Error) :
    (∃ n, impMat (impParse G n) pol d p st o = some (.done (.error e) st' o')) ↔
      Runs G pol d p o (.err e o') ∧ st' = st := by
  simp only [impMat_eq, liftR_error, Runs, exists_and_right]

theorem C55_try_mat_panic (p : Pat ι β) (st : σ) (o : Nat) :
    (∃ n, impMat (impParse G n) pol d p st o = some .panic) ↔ Runs G pol d p o .panic := by
  simp only [impMat_eq, liftR_panic, Runs]

/-- **C55**: likewise for `construct`, with the handler's state. -/
theorem C55_construct_ok (p : Pat ι β) (st st' : σ) (o o' : Nat) (v : Val β) :
    (∃ n, impCon G H n pol d p st o = some (.done (.ok v) st' o')) ↔
      Constructs G H pol d p st o (.ok v st' o') := by
  simp only [imp_con, Constructs, liftC]
  refine exists_congr fun n => ?_
  rcases con G H n pol d p st o with _ | (⟨s, st1, o1⟩ | ⟨e, st1, o1⟩ | _) <;> simp

theorem C55_construct_err (p : Pat ι β) (st st' : σ) (o o' : Nat) (e : Error) :
    (∃ n, impCon G H n pol d p st o = some (.done (.error e) st' o')) ↔
      Constructs G H pol d p st o (.err e st' o') := by
  simp only [imp_con, Constructs, liftC]
  refine exists_congr fun n => ?_
  rcases con G H n pol d p st o with _ | (⟨s, st1, o1⟩ | ⟨e, st1, o1⟩ | _) <;> simp

theorem C55_construct_panic (p : Pat ι β) (st : σ) (o : Nat) :
    (∃ n, impCon G H n pol d p st o = some .panic) ↔ Constructs G H pol d p st o .panic := by
  simp only [imp_con, Constructs, liftC]
  refine exists_congr fun n => ?_
  rcases con G H n pol d p st o with _ | (⟨s, st1, o1⟩ | ⟨e, st1, o1⟩ | _) <;> simp

end

/-- The program for nested parentheses, with a space-skipping policy. -/
example : impMat (σ := Unit) (impParse GP 8) (some spaces) "( )".toList parens () 0 =
    some (.done (.ok ⟨0, 3⟩) () 3) := by rfl

/-- `'(' then ')'` on `(x`: the guard puts the offset back. -/
example : impMat (σ := Unit) (impParse (G0 (ι := Char) (β := Nat)) 5) none "(x".toList
    (.thn (.lit ['(']) (.lit [')'])) () 0 = some (.done (.error .literal) () 0) := by rfl

end Neure
