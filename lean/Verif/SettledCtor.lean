import Verif.SettledLemmas
import Verif.CtorDen
/-!
# Lemmas for C88: building values
-/

namespace Neure

set_option linter.unusedSectionVars false
set_option linter.unusedSimpArgs false

variable {ι β σ : Type} [Item ι] {G : Rules ι β} {H : Handler ι β σ}

theorem conStep_up {mt mt' : Pat ι β → Nat → Option (Res Span)} {leaf leaf' : Option (Res Span)}
    {cn cn' : Pat ι β → σ → Nat → Option (CRes σ (Val β))} (hm : ∀ p o, Le (mt p o) (mt' p o))
    (hl : Le leaf leaf') (hc : ∀ p st o, Le (cn p st o) (cn' p st o)) (n : Nat) (d : List ι) (p : Pat ι β)
    (st : σ) (o : Nat) : Le (conStep G H n mt leaf cn d p st o) (conStep G H (n + 1) mt' leaf' cn' d p st o) := by
  have h := (approx_conStep (G := G) (H := H)
    (mt := fun k p o => if k ≤ n then mt p o else mt' p o) (hm := fun p o => approx_two n (hm p o))
    (leaf := fun k => if k ≤ n then leaf else leaf') (hl := approx_two n hl)
    (cn := fun k p st o => if k ≤ n then cn p st o else cn' p st o)
    (hc := fun p st o => approx_two n (hc p st o)) d p st o).1 n (n + 1) (by omega)
  have hf : ¬ n + 1 ≤ n := by omega
  simp only [hf, if_false, Nat.le_refl, if_true] at h
  exact h

theorem invokeK_more {d x : List ι} {st : σ} {r r' : Option (Res Span)} (h : Le r r')
    (hh : ∀ s o1, r = some (.ok s o1) → ∀ x, H (d ++ x) o1 s st = H d o1 s st) :
    Le (invokeK H d st r) (invokeK H (d ++ x) st r') := by
  intro v hv
  cases hr : r with
  | none => rw [hr] at hv; cases hv
  | some w =>
    rw [h w hr]
    rw [hr] at hv
    cases w with
    | ok s o1 => simp only [invokeK, caseM] at hv ⊢; rw [hh s o1 hr x]; exact hv
    | err e o1 => exact hv
    | panic => exact hv

theorem conStep_more {mt mt' : Pat ι β → Nat → Option (Res Span)} {leaf leaf' : Option (Res Span)}
    {cn cn' : Pat ι β → σ → Nat → Option (CRes σ (Val β))} (hm : ∀ p o, Le (mt p o) (mt' p o))
    (hl : Le leaf leaf') (hc : ∀ p st o, Le (cn p st o) (cn' p st o)) (n : Nat) (d x : List ι) {p : Pat ι β}
    {st : σ} {o : Nat} (h : DoneC H mt leaf cn d st o p) :
    Le (conStep G H n mt leaf cn d p st o) (conStep G H (n + 1) mt' leaf' cn' (d ++ x) p st o) := by
  have comb : ∀ q : Pat ι β, Le (conStep G H n mt leaf cn [] q st o) (conStep G H (n + 1) mt' leaf' cn' [] q st o) :=
    fun q => conStep_up hm hl hc n [] q st o
  cases p with
  | empty | fail | start | anchorEnd | consume _ | consumeAll | lit _ | native _ | once _ _ | many1 _ _ | optU _ _
  | many0 _ _ | between _ _ _ _ | times _ _ _ | thenU _ _ _ | assert _ _ | build _ _ => exact invokeK_more hl h
  | pat q => exact invokeK_more (hm q o) h
  | thn a b => exact comb (.thn a b)
  | ifThen a t b => exact comb (.ifThen a t b)
  | pre a b => exact comb (.pre a b)
  | suf a b => exact comb (.suf a b)
  | enclose a b c => exact comb (.enclose a b c)
  | sepOnce a b c => exact comb (.sepOnce a b c)
  | or a b => exact comb (.or a b)
  | longest a b => exact comb (.longest a b)
  | opt q => exact comb (.opt q)
  | choice e items => exact comb (.choice e items)
  | ltm e items => exact comb (.ltm e items)
  | rep q r => exact comb (.rep q r)
  | rep2 q m k => exact comb (.rep2 q m k)
  | collect q min => exact comb (.collect q min)
  | sep q s skip min => exact comb (.sep q s skip min)
  | sep2 q s skip m k => exact comb (.sep2 q s skip m k)
  | sepCollect q s skip min => exact comb (.sepCollect q s skip min)
  | branch t a b =>
    have := comb (.branch (fun _ _ => t d o) a b)
    simp only [conStep] at this ⊢
    rw [show t (d ++ x) o = t d o from h x]; exact this
  | map q f => exact comb (.map q f)
  | dthen q f =>
    simp only [conStep]
    intro r hr
    cases hq : cn q st o with
    | none => rw [hq] at hr; cases hr
    | some w =>
      rw [hc _ _ _ w hq]
      rw [hq] at hr
      cases w with
      | ok v st1 o1 =>
        simp only [caseC] at hr ⊢
        rw [h v st1 o1 hq x]
        cases hf : f d o1 v with
        | ok p' o2 =>
          rw [hf] at hr
          exact caseC_le (hc p' st1 o2) (fun _ _ _ => Le.refl _) (fun _ _ _ => Le.refl _) r hr
        | err e o2 => rw [hf] at hr; exact hr
        | panic => rw [hf] at hr; exact hr
      | err e st1 o1 => exact hr
      | panic => exact hr
  | cell i => exact comb (.cell i)

theorem conS_more (n : Nat) (pol : Option (Pat ι β)) (d x : List ι) (p : Pat ι β) (st : σ) (o : Nat) :
    Le (conS G H n pol d p st o) (con G H (n + 1) pol (d ++ x) p st o) := by
  induction n generalizing p st o with
  | zero => exact Le.none _
  | succ n ih =>
    intro r hr
    simp only [conS] at hr
    split at hr
    · rename_i h
      exact conStep_more (mt' := tryMat G (n + 1) pol (d ++ x)) (leaf' := tryMat G (n + 2) pol (d ++ x) p o)
        (cn' := con G H (n + 1) pol (d ++ x)) (matS_more n pol d x) (matS_more (n + 1) pol d x p o)
        (fun p st o => ih p st o) n d x h r hr
    · cases hr

end Neure
