import Verif.Locks
/-!
# Mutex handles and panics

A panic inside the content of a mutex handle unwinds through the guard of the mutex:
the guard is dropped, which unlocks the mutex and marks it as poisoned (standard
library).  From then on `lock()` returns an error, which `src/regex.rs:233` and
`src/ctor.rs:279` turn into `Err(Error::Mutex)`; the content is not run.  The guard
inside the error is dropped at once.

What a thread does now depends on what its `lock()` calls return, and that depends on
the other threads.  So the programs of `Imp.lean` are run here along a given list of
operations, which contains the answers: `scripted` takes the next operation from the
list, and gives up (`none`) if it is not one the program does.

Not modelled: where a panic leaves the position and the handler's state; units behind a
mutex (`src/neu.rs:187-205`, where a poisoned mutex panics); a build with
`panic = "abort"`.
-/

namespace Neure

variable {ι β σ : Type} [Item ι]

/-- What a thread does to a mutex, and what it is told. -/
inductive PEv where
  /-- `lock()` returned the guard -/
  | acq (i : Nat)
  /-- `lock()` returned an error: the mutex is poisoned -/
  | bad (i : Nat)
  /-- the guard was dropped at the end of its statement -/
  | rel (i : Nat)
  /-- a panic went up to the caller of the crate; all guards on the way were dropped -/
  | unwind
deriving DecidableEq, Repr

/-- Using the content of handle `i` under its lock, `src/regex.rs:231-235`,
`src/ctor.rs:277-282`; `content` is what is done with the guard. -/
def scripted {α : Type} (i : Nat) (content : M (σ × List PEv) (Except Error α)) :
    M (σ × List PEv) (Except Error α) := fun st o => match st.2 with
  | .bad j :: w => if j = i then some (.done (.error .mutex) (st.1, w) o) else none
  | .acq j :: w => if j = i then
      match content (st.1, w) o with
      | some (.done a (st', .rel k :: w') o') => if k = i then some (.done a (st', w') o') else none
      | some (.done _ _ _) => none
      | some .panic => some .panic
      | none => none
    else none
  | _ => none

/-- The content of handle `i`: `Option`, `src/regex.rs:225`, `src/ctor.rs:273`. -/
def content {τ α : Type} (G : Rules ι β) (i : Nat) (use : Pat ι β → M τ (Except Error α)) :
    M τ (Except Error α) := match G i with
  | none => pure (.error .option)
  | some q => use q

/-- `p.try_parse(ctx)` where the handles are behind mutexes that may be poisoned. -/
def poisonParse (G : Rules ι β) :
    Nat → Option (Pat ι β) → List ι → Pat ι β → M (σ × List PEv) (Except Error Span)
  | 0 => fun _ _ _ _ _ => none
  | n + 1 => fun pol d p =>
    match p with
    | .cell i => scripted i (content G i (poisonParse G n pol d))
    | p => impStep G n (impMat (poisonParse G n) pol) (poisonParse G n pol d) d p

/-- `ctx.try_mat(&p)` where the handles are behind mutexes that may be poisoned. -/
def poisonMat (G : Rules ι β) (n : Nat) (pol : Option (Pat ι β)) (d : List ι) (p : Pat ι β) :
    M (σ × List PEv) (Except Error Span) := impMat (poisonParse G n) pol d p

/-- `p.construct(ctx, handler)` where the handles are behind mutexes that may be
poisoned. -/
def poisonCon (G : Rules ι β) (H : Handler ι β σ) :
    Nat → Option (Pat ι β) → List ι → Pat ι β → M (σ × List PEv) (Except Error (Val β))
  | 0 => fun _ _ _ _ _ => none
  | n + 1 => fun pol d p =>
    match p with
    | .cell i => scripted i (content G i (poisonCon G H n pol d))
    | p => impConStep G (besides H) n (poisonMat G n pol d) (poisonMat G (n + 1) pol d p)
        (poisonCon G H n pol d) d p

/-- A thread calling `ctx.try_mat(&p)` does exactly `w` to the mutexes, being told what
`w` says it is told, and gets `r`. -/
inductive MatchPath (G : Rules ι β) (pol : Option (Pat ι β)) (d : List ι) (p : Pat ι β) (o : Nat) :
    Res Span → List PEv → Prop where
  | returns {n a o' w} : poisonMat (σ := Unit) G n pol d p ((), w) o = some (.done a ((), []) o') →
      MatchPath G pol d p o (resOf a o') w
  /-- it panics after `u`, and not before -/
  | panics {n u} : poisonMat (σ := Unit) G n pol d p ((), u) o = some .panic →
      (∀ u' e v, u = u' ++ e :: v → poisonMat (σ := Unit) G n pol d p ((), u') o ≠ some .panic) →
      MatchPath G pol d p o .panic (u ++ [.unwind])

/-- A thread calling `ctx.ctor_handler(&p, handler)` does exactly `w` to the mutexes,
being told what `w` says it is told, and gets `r`. -/
inductive CtorPath (G : Rules ι β) (H : Handler ι β σ) (pol : Option (Pat ι β)) (d : List ι)
    (p : Pat ι β) (st : σ) (o : Nat) : CRes σ (Val β) → List PEv → Prop where
  | returns {n a st' o' w} : poisonCon G H n pol d p (st, w) o = some (.done a (st', []) o') →
      CtorPath G H pol d p st o (cresOf a st' o') w
  /-- it panics after `u`, and not before -/
  | panics {n u} : poisonCon G H n pol d p (st, u) o = some .panic →
      (∀ u' e v, u = u' ++ e :: v → poisonCon G H n pol d p (st, u') o ≠ some .panic) →
      CtorPath G H pol d p st o .panic (u ++ [.unwind])

/-! ## Threads -/

/-- What a thread does next, depending on what `lock()` tells it. -/
inductive Course where
  | stop
  | lock (i : Nat) (ok bad : Course)
  | unlock (i : Nat) (next : Course)
  /-- a panic unwinds; `next` is what the thread does if it catches it -/
  | unwind (next : Course)

/-- The ways through a course. -/
inductive Course.Way : Course → List PEv → Prop where
  | stop : Way .stop []
  | acq {i a b w} : Way a w → Way (.lock i a b) (.acq i :: w)
  | bad {i a b w} : Way b w → Way (.lock i a b) (.bad i :: w)
  | rel {i a w} : Way a w → Way (.unlock i a) (.rel i :: w)
  | unwind {a w} : Way a w → Way (.unwind a) (.unwind :: w)

/-- Who holds each mutex, which mutexes are poisoned, what each thread does from here
on and what it has done. -/
structure PSys where
  owner : Nat → Option Nat
  poisoned : Nat → Prop
  next : Nat → Course
  did : Nat → List PEv

/-- All threads are about to begin; no mutex is poisoned. -/
def PSys.start (c : Nat → Course) : PSys := ⟨fun _ => none, fun _ => False, c, fun _ => []⟩

/-- Thread `t` does its next operation.  `lock()` returns only when nobody holds the
mutex.  Unwinding releases and poisons what the thread holds. -/
inductive PSys.Step : PSys → PSys → Prop where
  | acquire {s : PSys} {t i : Nat} {a b : Course} : s.next t = .lock i a b → s.owner i = none →
      ¬ s.poisoned i →
      Step s ⟨upd s.owner i (some t), s.poisoned, upd s.next t a, upd s.did t (s.did t ++ [.acq i])⟩
  | refuse {s : PSys} {t i : Nat} {a b : Course} : s.next t = .lock i a b → s.owner i = none →
      s.poisoned i →
      Step s ⟨s.owner, s.poisoned, upd s.next t b, upd s.did t (s.did t ++ [.bad i])⟩
  | release {s : PSys} {t i : Nat} {a : Course} : s.next t = .unlock i a → s.owner i = some t →
      Step s ⟨upd s.owner i none, s.poisoned, upd s.next t a, upd s.did t (s.did t ++ [.rel i])⟩
  | unwind {s : PSys} {t : Nat} {a : Course} : s.next t = .unwind a →
      Step s ⟨fun i => if s.owner i = some t then none else s.owner i,
        fun i => s.poisoned i ∨ s.owner i = some t, upd s.next t a, upd s.did t (s.did t ++ [.unwind])⟩

/-- `n` operations, by whichever threads the scheduler picks. -/
inductive PSys.Run : Nat → PSys → PSys → Prop where
  | refl (s) : Run 0 s s
  | step {n s s' s''} : Run n s s' → Step s' s'' → Run (n + 1) s s''

end Neure
