import Verif.LockRel
import Verif.Cong
/-!
# All bodies, with and without lock operations
-/

namespace Neure

set_option linter.unusedSectionVars false

variable {ι β σ α : Type} [Item ι] {X : Words}

/-- `LRel` and `GRel` are preserved by the statements. -/
def lockCong (X : Words) : Cong (σ × List Ev) σ where
  R := LRel X
  GR := GRel X
  pure_ := lrel_pure
  panic := lrel_panic
  offset_ := lrel_offset
  setOffset_ := lrel_setOffset
  peekCtx_ := lrel_peekCtx
  moveCtx_ := lrel_moveCtx
  none_ := lrel_none
  bind_ := lrel_bind
  onClone_ := lrel_onClone
  gpure := grel_pure
  gtry := grel_try
  gbeg := grel_beg
  gprocessRet := grel_processRet
  gcall := grel_call
  gtryMat := grel_tryMat
  gbind := grel_bind
  guarded_ := lrel_guarded
  function_ := lrel_function
  gmoved := grel_moved

theorem lrel_invoke (H : Handler ι β σ) {d : List ι} {m : M (σ × List Ev) (Except Error Span)}
    {m' : M σ (Except Error Span)} (h : LRel X m m') :
    LRel X (Imp.invoke (besides H) d m) (Imp.invoke H d m') := by
  refine lrel_bind h fun r => ?_
  cases r with
  | error e => exact lrel_pure _
  | ok s =>
    refine lrel_of_through (funext fun st => funext fun o => ?_)
    simp only [besides, through]
    rcases H d o s st.1 with ⟨_ | _ | _, st'⟩ <;> rfl

/-! ## One level -/

theorem lrel_impStep (G : Rules ι β) (n : Nat)
    {mt : List ι → Pat ι β → M (σ × List Ev) (Except Error Span)}
    {mt' : List ι → Pat ι β → M σ (Except Error Span)}
    {pr : Pat ι β → M (σ × List Ev) (Except Error Span)} {pr' : Pat ι β → M σ (Except Error Span)}
    (d : List ι) (p : Pat ι β) (hp : ∀ i, p ≠ .cell i)
    (hm : ∀ d q, Child (fun _ => none) q p → LRel X (mt d q) (mt' d q)) :
    LRel X (impStep G n mt pr d p) (impStep G n mt' pr' d p) :=
  crel_impStep (C := lockCong X) G n d p hp hm

theorem lrel_impConStep (G : Rules ι β) (H : Handler ι β σ) (n : Nat)
    {mt : Pat ι β → M (σ × List Ev) (Except Error Span)} {mt' : Pat ι β → M σ (Except Error Span)}
    {leaf : M (σ × List Ev) (Except Error Span)} {leaf' : M σ (Except Error Span)}
    {cn : Pat ι β → M (σ × List Ev) (Except Error (Val β))}
    {cn' : Pat ι β → M σ (Except Error (Val β))}
    (d : List ι) (p : Pat ι β) (hp : ∀ i, p ≠ .cell i) (hl : LRel X leaf leaf')
    (hm : ∀ q, Child (fun _ => none) q p → LRel X (mt q) (mt' q))
    (hc : ∀ q, Child (fun _ => none) q p → LRel X (cn q) (cn' q)) :
    LRel X (impConStep G (besides H) n mt leaf cn d p) (impConStep G H n mt' leaf' cn' d p) :=
  crel_impConStep (C := lockCong X) G (fun _ _ _ h => lrel_invoke H h) n d p hp hl hm hc

end Neure
