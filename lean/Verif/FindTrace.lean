import Verif.Find
import Verif.WorkSpec
/-!
# Searches that record where `try_mat` was called

The loops of `Find.lean` with the positions of the attempts, in order.
-/

namespace Neure

set_option linter.unusedSectionVars false

variable {ι β α : Type} [Item ι]

/-- `findBody` (`src/ctx.rs:525-531, 663-669`); no attempt is made here. -/
def findBodyT (func : Processor) (h : Span → Out α) (loop : Nat → Option (Res (Option α) × List Nat))
    (ret : Except Error Span) (o : Nat) : Option (Res (Option α) × List Nat) :=
  match func ret o with
  | (none, o2) => loop o2
  | (some s, o2) => match h s with
    | .ok a => some (.ok (some a) o2, [])
    | .err _ => loop o2
    | .panic => some (.panic, [])

/-- `findLoop` (`src/ctx.rs:513-534, 655-672`) with the positions at which `try_mat` was called. -/
def findLoopT (mt : Nat → Option (Res Span)) (len : Nat) (func : Processor) (h : Span → Out α) :
    Nat → Nat → Option (Res (Option α) × List Nat)
  | 0, _ => none
  | fuel + 1, o =>
    if o < len then
      match mt o with
      | none => none
      | some .panic => some (.panic, [o])
      | some (.ok s o') => (findBodyT func h (findLoopT mt len func h fuel) (.ok s) o').map fun x => (x.1, o :: x.2)
      | some (.err e o') => (findBodyT func h (findLoopT mt len func h fuel) (.error e) o').map fun x => (x.1, o :: x.2)
    else some (.ok none o, [])

/-- `drain` (the iterator of `src/ctx.rs:645-673` until it returns `None`) with all attempts. -/
def drainT (next : Nat → Option (Res (Option α) × List Nat)) : Nat → Nat → Option (Res (List α) × List Nat)
  | 0, _ => none
  | k + 1, o =>
    match next o with
    | none => none
    | some (.panic, l) => some (.panic, l)
    | some (.err e o', l) => some (.err e o', l)
    | some (.ok none o', l) => some (.ok [] o', l)
    | some (.ok (some a) o', l) =>
      match drainT next k o' with
      | none => none
      | some (.panic, l') => some (.panic, l ++ l')
      | some (.err e o'', l') => some (.err e o'', l ++ l')
      | some (.ok as o'', l') => some (.ok (a :: as) o'', l ++ l')

section Searches

variable (G : Rules ι β) (pol : Option (Pat ι β)) (d : List ι) (p : Pat ι β)

/-- `ctx.find::<O>(p)` (`src/ctx.rs:497-510`) from `o` returns `r`; `try_mat` was called at the
positions `l`, in this order. -/
def FindsTrying (x : Extract ι α) (o : Nat) (r : Res (Option α)) (l : List Nat) : Prop :=
  ∃ n, findLoopT (tryMat G n pol d p) (blen d) findProc (x.invoke d) n o = some (r, l)

/-- The same for draining `ctx.find_all::<O>(p)` (`src/ctx.rs:577-590`). -/
def FindsAllTrying (x : Extract ι α) (o : Nat) (r : Res (List α)) (l : List Nat) : Prop :=
  ∃ n, drainT (findLoopT (tryMat G n pol d p) (blen d) findProc (x.invoke d) n) n o = some (r, l)

/-- The same for draining `ctx.match_seq::<O>(p)` (`src/ctx.rs:629-642`). -/
def MatchSeqTrying (x : Extract ι α) (o : Nat) (r : Res (List α)) (l : List Nat) : Prop :=
  ∃ n, drainT (findLoopT (tryMat G n pol d p) (blen d) (seqProc (blen d)) (x.invoke d) n) n o = some (r, l)

/-- The attempts at the positions `l` make `t` calls of `try_parse` together. -/
inductive TotalCalls : List Nat → Nat → Prop where
  | nil : TotalCalls [] 0
  | cons {j : Nat} {l : List Nat} {r : Except Error Span} {o' c t : Nat} :
      RunsWork G pol d p j r o' c → TotalCalls l t → TotalCalls (j :: l) (c + t)

end Searches

/-- The positions `l` increase, from `o` on, and stay below `b`. -/
def Climbs (l : List Nat) (o b : Nat) : Prop := l.Pairwise (· < ·) ∧ ∀ j ∈ l, o ≤ j ∧ j < b

end Neure
