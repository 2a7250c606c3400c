import Verif.Storer
/-!
# Specification vocabulary for storers (C36, C37)

A *session* is any finite history of mutating calls on one storer, sharing one
context, each paired with what it returned.
-/

namespace Neure

variable {ι β : Type} [Item ι]

namespace VecStorer

/-- `Session G pol d v o h v' o'`: starting from storer `v` and a context at
offset `o`, the calls recorded in `h` were made one after the other, returned
what `h` says, and left storer `v'` and offset `o'`. -/
inductive Session (G : Rules ι β) (pol : Option (Pat ι β)) (d : List ι) (v : VecStorer) (o : Nat) :
    List (Op ι β × Ret) → VecStorer → Nat → Prop where
  | start : Session G pol d v o [] v o
  | call {h : List (Op ι β × Ret)} {v1 : VecStorer} {o1 : Nat} {op : Op ι β} {ret : Ret}
      {v2 : VecStorer} {o2 n : Nat} : Session G pol d v o h v1 o1 →
      VecStorer.call G pol d n v1 o1 op = some (some (ret, v2, o2)) →
      Session G pol d v o (h ++ [(op, ret)]) v2 o2

/-- The call empties group `i`. -/
def Op.clears (i : Nat) : Op ι β → Bool
  | .clr id => id == i
  | .reset => true
  | _ => false

/-- The span (if any) that a call puts into group `i`: the argument of
`add_span(i, ..)`, or the span *returned* by `try_cap(i, ..)`. -/
def added (i : Nat) : Op ι β × Ret → Option Span
  | (.add id s, _) => if id = i then some s else none
  | (.cap id _, .span s) => if id = i then some s else none
  | _ => none

/-- The calls after the last one that emptied group `i`, oldest first. -/
def sinceClear (i : Nat) (h : List (Op ι β × Ret)) : List (Op ι β × Ret) :=
  (h.reverse.takeWhile fun e => !e.1.clears i).reverse

end VecStorer

namespace ArrayStorer

/-- As `VecStorer.Session`. -/
inductive Session (G : Rules ι β) (pol : Option (Pat ι β)) (d : List ι) (v : ArrayStorer) (o : Nat) :
    List (Op ι β × VecStorer.Ret) → ArrayStorer → Nat → Prop where
  | start : Session G pol d v o [] v o
  | call {h : List (Op ι β × VecStorer.Ret)} {v1 : ArrayStorer} {o1 : Nat} {op : Op ι β}
      {ret : VecStorer.Ret} {v2 : ArrayStorer} {o2 n : Nat} : Session G pol d v o h v1 o1 →
      ArrayStorer.call G pol d n v1 o1 op = some (some (ret, v2, o2)) →
      Session G pol d v o (h ++ [(op, ret)]) v2 o2

/-- The call empties group `i`. -/
def Op.clears (i : Nat) : Op ι β → Bool
  | .clr id => id == i
  | .reset => true
  | _ => false

/-- The span (if any) that a call writes into cell `j` of group `i`. -/
def written (i j : Nat) : Op ι β × VecStorer.Ret → Option Span
  | (.set id k s, _) => if id = i ∧ k = j then some s else none
  | (.cap id k _, .span s) => if id = i ∧ k = j then some s else none
  | _ => none

/-- The calls after the last one that emptied group `i`, *latest* first. -/
def sinceClearRev (i : Nat) (h : List (Op ι β × VecStorer.Ret)) : List (Op ι β × VecStorer.Ret) :=
  h.reverse.takeWhile fun e => !e.1.clears i

end ArrayStorer

end Neure
