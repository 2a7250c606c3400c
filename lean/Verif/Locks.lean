import Verif.Imp
/-!
# Mutex handles and threads

`rec_parser_sync` (`src/regex/rec.rs:45-59`) and `into_mutex` (`src/ctor/into.rs:130-133`,
`src/regex/into.rs:88-91`) put a pattern behind a mutex so that several threads can use
it.  Using the handle locks the mutex, runs the content and unlocks
(`src/regex.rs:231-235`, `src/ctor.rs:277-282`): the guard is a temporary of the
statement that calls the content, so it lives until the call has returned.

`lockParse`, `lockMat` and `lockCon` are the programs of `Imp.lean` again, where a
handle additionally writes down when it locks and unlocks.  What they compute is
private to the thread (its context and its handler); the contents of the handles
are only read.  So all that threads do to each other is to wait, and a set of
threads is given by their lists of lock operations: `Sys`.

A handle that is used again by the thread that holds it blocks: the standard
library's mutex is not re-entrant.  Poisoning (`Error::Mutex`, after a panic
inside the content) is in `Poison.lean`.
-/

namespace Neure

variable {ι β σ : Type} [Item ι]

/-- What a thread does to a mutex. -/
inductive Ev where
  /-- `lock()` returned -/
  | acq (i : Nat)
  /-- the guard was dropped -/
  | rel (i : Nat)
deriving DecidableEq, Repr

/-- The mutex of handle `i` is locked or unlocked: written down after what was
written before. -/
def log (e : Ev) : M (σ × List Ev) Unit := fun st o => some (.done () (st.1, st.2 ++ [e]) o)

/-- Using the content of handle `i` under its lock: `Mutex` `src/regex.rs:231-235`,
`src/ctor.rs:277-282`, then `Option` `src/regex.rs:225`, `src/ctor.rs:273`. -/
def locked {α : Type} (G : Rules ι β) (i : Nat)
    (use : Pat ι β → M (σ × List Ev) (Except Error α)) : M (σ × List Ev) (Except Error α) := do
  log (.acq i)
  let ret ← match G i with
    | none => pure (.error .option)
    | some q => use q
  log (.rel i)
  return ret

/-- `p.try_parse(ctx)` where the handles are behind mutexes. -/
def lockParse (G : Rules ι β) :
    Nat → Option (Pat ι β) → List ι → Pat ι β → M (σ × List Ev) (Except Error Span)
  | 0 => fun _ _ _ _ _ => none
  | n + 1 => fun pol d p =>
    match p with
    | .cell i => locked G i (lockParse G n pol d)
    | p => impStep G n (impMat (lockParse G n) pol) (lockParse G n pol d) d p

/-- `ctx.try_mat(&p)` where the handles are behind mutexes. -/
def lockMat (G : Rules ι β) (n : Nat) (pol : Option (Pat ι β)) (d : List ι) (p : Pat ι β) :
    M (σ × List Ev) (Except Error Span) := impMat (lockParse G n) pol d p

/-- The handler does not see what is kept besides its state. -/
def besides {τ : Type} (H : Handler ι β σ) : Handler ι β (σ × τ) := fun d o s st =>
  ((H d o s st.1).1, ((H d o s st.1).2, st.2))

/-- `p.construct(ctx, handler)` where the handles are behind mutexes. -/
def lockCon (G : Rules ι β) (H : Handler ι β σ) :
    Nat → Option (Pat ι β) → List ι → Pat ι β → M (σ × List Ev) (Except Error (Val β))
  | 0 => fun _ _ _ _ _ => none
  | n + 1 => fun pol d p =>
    match p with
    | .cell i => locked G i (lockCon G H n pol d)
    | p => impConStep G (besides H) n (lockMat G n pol d) (lockMat G (n + 1) pol d p)
        (lockCon G H n pol d) d p

/-- The result of a call as it is seen from outside. -/
def resOf {α : Type} : Except Error α → Nat → Res α
  | .ok a, o => .ok a o
  | .error e, o => .err e o

/-- The result of constructing, with the handler's state. -/
def cresOf {α : Type} : Except Error α → σ → Nat → CRes σ α
  | .ok a, st, o => .ok a st o
  | .error e, st, o => .err e st o

/-- A thread calling `ctx.try_mat(&p)` gets `r` and does `w` to the mutexes on the
way. -/
def MatchLog (G : Rules ι β) (pol : Option (Pat ι β)) (d : List ι) (p : Pat ι β) (o : Nat)
    (r : Res Span) (w : List Ev) : Prop :=
  ∃ n a o', lockMat (σ := Unit) G n pol d p ((), []) o = some (.done a ((), w) o') ∧ resOf a o' = r

/-- A thread calling `ctx.ctor_handler(&p, handler)` gets `r` and does `w` to the
mutexes on the way. -/
def CtorLog (G : Rules ι β) (H : Handler ι β σ) (pol : Option (Pat ι β)) (d : List ι) (p : Pat ι β)
    (st : σ) (o : Nat) (r : CRes σ (Val β)) (w : List Ev) : Prop :=
  ∃ n a st' o', lockCon G H n pol d p (st, []) o = some (.done a (st', w) o') ∧ cresOf a st' o' = r

/-! ## Threads -/

/-- `f` with the value at `i` replaced. -/
def upd {α : Type} (f : Nat → α) (i : Nat) (a : α) : Nat → α := fun j => if j = i then a else f j

/-- Who holds each mutex, and what each thread still has to do to mutexes. -/
structure Sys where
  owner : Nat → Option Nat
  todo : Nat → List Ev

/-- All threads are about to begin. -/
def Sys.start (w : Nat → List Ev) : Sys := ⟨fun _ => none, w⟩

/-- Thread `t` does its next operation. `lock()` returns only when nobody holds the
mutex. -/
inductive Sys.Step : Sys → Sys → Prop where
  | acquire {s : Sys} {t i : Nat} {w : List Ev} : s.todo t = .acq i :: w → s.owner i = none →
      Step s ⟨upd s.owner i (some t), upd s.todo t w⟩
  | release {s : Sys} {t i : Nat} {w : List Ev} : s.todo t = .rel i :: w → s.owner i = some t →
      Step s ⟨upd s.owner i none, upd s.todo t w⟩

/-- `n` operations, by whichever threads the scheduler picks. -/
inductive Sys.Run : Nat → Sys → Sys → Prop where
  | refl (s) : Run 0 s s
  | step {n s s' s''} : Run n s s' → Step s' s'' → Run (n + 1) s s''

end Neure
