import Verif.Poison
import Verif.LockSpec
/-!
# Specification: handles after a panic
-/

namespace Neure

variable {ι β : Type}

/-- The rules as they are when the handles in `X` are poisoned: using such a handle is
an `Error::Mutex` where the position is, whatever its content.  (A choice between no
alternatives does nothing but report its error.) -/
def afterPoison (X : Nat → Prop) [DecidablePred X] (G : Rules ι β) : Rules ι β := fun i =>
  if X i then some (.choice .mutex []) else G i

/-- `lock()` reported poisoning for the handles in `X` and for no others. -/
def Answered (X : Nat → Prop) (w : List PEv) : Prop :=
  (∀ i, .bad i ∈ w → X i) ∧ ∀ i, .acq i ∈ w → ¬ X i

/-- The handles a thread holds after `w`, the last one first. -/
def holding : List Nat → List PEv → List Nat
  | h, [] => h
  | h, .acq i :: w => holding (i :: h) w
  | h, .bad _ :: w => holding h w
  | h, .rel i :: w => holding (h.erase i) w
  | _, .unwind :: w => holding [] w

/-- A set of calls: `ctx.try_mat(&p)` and `ctx.ctor_handler(&p, handler)`, with policy,
input, state of the handler and position. -/
structure CallSet (ι β : Type) where
  mat : Option (Pat ι β) → List ι → Pat ι β → Nat → Prop
  ctor : {σ : Type} → Handler ι β σ → Option (Pat ι β) → List ι → Pat ι β → σ → Nat → Prop

/-- What a thread may do to the mutexes: any sequence of calls from the set.  (After a
call that panics it goes on if it catches the panic; if not, that is the last call.) -/
inductive ThreadPath [Item ι] (G : Rules ι β) (K : CallSet ι β) : List PEv → Prop where
  | idle : ThreadPath G K []
  | mat {pol d p o r u v} : K.mat pol d p o → MatchPath G pol d p o r u → ThreadPath G K v →
      ThreadPath G K (u ++ v)
  | ctor {σ : Type} {H : Handler ι β σ} {pol d p st o r u v} : K.ctor H pol d p st o →
      CtorPath G H pol d p st o r u → ThreadPath G K v → ThreadPath G K (u ++ v)

/-- The patterns and policies of the calls reach only handles in `T`. -/
structure CallSet.Within (K : CallSet ι β) (G : Rules ι β) (T : Nat → Prop) : Prop where
  mat : ∀ {pol d p o}, K.mat pol d p o → ∀ q, q = p ∨ pol = some q → ∀ i, Desc G q (.cell i) → T i
  ctor : ∀ {σ : Type} {H : Handler ι β σ} {pol d p st o}, K.ctor H pol d p st o →
    ∀ q, q = p ∨ pol = some q → ∀ i, Desc G q (.cell i) → T i

/-- No call of the set panics if no handle is poisoned. -/
structure CallSet.NoPanic [Item ι] (K : CallSet ι β) (G : Rules ι β) : Prop where
  mat : ∀ {pol d p o}, K.mat pol d p o → ¬ Runs G pol d p o .panic
  ctor : ∀ {σ : Type} {H : Handler ι β σ} {pol d p st o}, K.ctor H pol d p st o →
    ¬ Constructs G H pol d p st o .panic

/-- The policies of the calls use handles of lower rank than their patterns. -/
structure CallSet.InOrder (K : CallSet ι β) (rank : Nat → Nat) (G : Rules ι β) : Prop where
  mat : ∀ {pol d p o}, K.mat pol d p o → PolicyBelow rank G pol p
  ctor : ∀ {σ : Type} {H : Handler ι β σ} {pol d p st o}, K.ctor H pol d p st o →
    PolicyBelow rank G pol p

/-- The longest way through a course. -/
def Course.depth : Course → Nat
  | .stop => 0
  | .lock _ a b => max a.depth b.depth + 1
  | .unlock _ a => a.depth + 1
  | .unwind a => a.depth + 1

/-- The sum of the longest ways of the first `k` threads. -/
def totalDepth (c : Nat → Course) : Nat → Nat
  | 0 => 0
  | k + 1 => totalDepth c k + (c k).depth

end Neure
