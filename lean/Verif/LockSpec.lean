import Verif.Locks
import Verif.Sub
/-!
# Specification: locking in a fixed order, and not locking twice
-/

namespace Neure

variable {ι β : Type}

/-- `p` contains handle `i` somewhere, handles not being followed. -/
def Mentions (p : Pat ι β) (i : Nat) : Prop := Desc (fun _ => none) p (.cell i)

/-- The handles are in an order such that the content of each handle contains only
handles of lower rank.  (In particular no handle is used inside itself.) -/
def LockOrder (rank : Nat → Nat) (G : Rules ι β) : Prop :=
  ∀ i q, G i = some q → ∀ k, Mentions q k → rank k < rank i

/-- The handles of the skip policy have lower rank than all handles the pattern can
reach.  (Nothing to check when there is no policy or it contains no handle.) -/
def PolicyBelow (rank : Nat → Nat) (G : Rules ι β) (pol : Option (Pat ι β)) (p : Pat ι β) : Prop :=
  ∀ s, pol = some s → ∀ j, Mentions s j → ∀ i, Desc G p (.cell i) → rank j < rank i

/-- A thread that holds `held` can do all of `w`: it never locks what it holds. -/
def NoReentry : List Nat → List Ev → Prop
  | _, [] => True
  | held, .acq i :: w => i ∉ held ∧ NoReentry (i :: held) w
  | held, .rel i :: w => NoReentry (held.erase i) w

instance : (held : List Nat) → (w : List Ev) → Decidable (NoReentry held w)
  | _, [] => inferInstanceAs (Decidable True)
  | held, .acq i :: w =>
    haveI : Decidable (NoReentry (i :: held) w) := instDecidableNoReentry (i :: held) w
    inferInstanceAs (Decidable (i ∉ held ∧ NoReentry (i :: held) w))
  | held, .rel i :: w => instDecidableNoReentry (held.erase i) w

/-- How many lock operations the first `k` threads have to do. -/
def totalWork (w : Nat → List Ev) : Nat → Nat
  | 0 => 0
  | k + 1 => totalWork w k + (w k).length

/-- What a thread may do to the mutexes: any sequence of calls of `try_mat` and
`ctor_handler`, each with its own input, position, pattern, policy and handler. -/
inductive ThreadLog [Item ι] (rank : Nat → Nat) (G : Rules ι β) : List Ev → Prop where
  | idle : ThreadLog rank G []
  | mat {pol d p o r u v} : MatchLog G pol d p o r u → PolicyBelow rank G pol p →
      ThreadLog rank G v → ThreadLog rank G (u ++ v)
  | ctor {σ : Type} {H : Handler ι β σ} {pol d p st o r u v} : CtorLog G H pol d p st o r u →
      PolicyBelow rank G pol p → ThreadLog rank G v → ThreadLog rank G (u ++ v)

/-- Only thread 0 does anything, and it does `w`. -/
def alone (w : List Ev) : Nat → List Ev := fun t => if t = 0 then w else []

end Neure
