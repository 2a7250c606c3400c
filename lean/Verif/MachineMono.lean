import Verif.MachineCtor
import Verif.PropsLayers
import Verif.CtorDen
/-!
# More fuel does not change a result: the evaluator of a build
-/

namespace Neure

set_option linter.unusedSectionVars false

variable {ι β σ : Type} [Item ι] {b : Build} {G : Rules ι β}

theorem opK_le {γ : Type} {r : Option Nat} {k k' : Nat → Option (Res γ)} (hk : ∀ a, Le (k a) (k' a)) :
    Le (opK r k) (opK r k') := by
  unfold opK
  cases r with
  | none => exact Le.refl _
  | some v => exact hk v

theorem addM_le {γ : Type} {s t : Span} {k k' : Span → Option (Res γ)} (hk : ∀ a, Le (k a) (k' a)) :
    Le (addM b s t k) (addM b s t k') := by
  unfold addM
  cases s.addAssignM b t with
  | none => exact Le.refl _
  | some v => exact hk v

theorem checkM_le {mt mt' : List ι → Pat ι β → Nat → Option (Res Span)}
    (h : ∀ d p o, Le (mt d p o) (mt' d p o)) (d : List ι) (o : Nat) (c : Cond ι β) (pr : Nat × ι) :
    Le (checkM b mt d o c pr) (checkM b mt' d o c pr) := by
  cases c with
  | empty => exact Le.refl _
  | fn f => exact Le.refl _
  | regex p =>
    simp only [checkM]
    cases b.add o pr.1 with
    | none => exact Le.refl _
    | some a =>
      simp only
      cases origAtM b d a with
      | err e => exact Le.refl _
      | panic => exact Le.refl _
      | ok d' =>
        simp only
        intro x hx
        cases hm : mt d' p 0 with
        | none => simp [hm] at hx
        | some v => rw [h _ _ _ _ hm]; rw [hm] at hx; exact hx

theorem testItemM_le {mt mt' : List ι → Pat ι β → Nat → Option (Res Span)}
    (h : ∀ d p o, Le (mt d p o) (mt' d p o)) (d : List ι) (o : Nat) (u : Neu ι) (c : Cond ι β)
    (pr : Nat × ι) : Le (testItemM b mt d o u c pr) (testItemM b mt' d o u c pr) := by
  unfold testItemM
  exact ite_le (checkM_le h _ _ _ _) (Le.refl _)

theorem scanM_le {t t' : Nat × ι → Option (Out Bool)} (h : ∀ pr, Le (t pr) (t' pr))
    (more : Nat → Bool) (it : List (Nat × ι)) (cnt : Nat) (beg : Option Nat) :
    Le (scanM b t more cnt beg it) (scanM b t' more cnt beg it) := by
  induction it generalizing cnt beg with
  | nil => simp only [scanM]; exact Le.refl _
  | cons pr it ih =>
    simp only [scanM]
    refine ite_le ?_ (Le.refl _)
    intro x hx
    cases ht : t pr with
    | none => simp [ht] at hx
    | some v =>
      rw [h _ _ ht]
      rw [ht] at hx
      rcases v with (_ | _) | _ | _
      · exact hx
      · simp only at hx ⊢
        cases hb : b.add cnt 1 with
        | none => rw [hb] at hx; exact hx
        | some c => rw [hb] at hx; exact ih _ _ _ hx
      · exact hx
      · exact hx

theorem repM_le {mt mt' : Pat ι β → Nat → Option (Res Span)} (h : ∀ p o, Le (mt p o) (mt' p o))
    (p : Pat ι β) (more : Nat → Bool) (fin : Nat → Span → Nat → Option (Res Span)) :
    ∀ (n cnt : Nat) (t : Span) (o : Nat),
      Le (repM b mt p more fin n cnt t o) (repM b mt' p more fin (n + 1) cnt t o)
  | 0, _, _, _ => Le.none _
  | n + 1, cnt, t, o => by
    rw [repM, repM]
    exact ite_le (caseR_le (h _ _) (fun _ _ => addM_le fun _ => opK_le fun _ =>
      repM_le h p more fin n _ _ _) (fun _ _ => Le.refl _)) (Le.refl _)

theorem sepM_le {mt mt' : Pat ι β → Nat → Option (Res Span)} (h : ∀ p o, Le (mt p o) (mt' p o))
    (p s : Pat ι β) (skip : Bool) (more : Nat → Bool) (fin : Nat → Span → Nat → Option (Res Span)) :
    ∀ (n cnt : Nat) (t : Span) (o : Nat),
      Le (sepM b mt p s skip more fin n cnt t o) (sepM b mt' p s skip more fin (n + 1) cnt t o)
  | 0, _, _, _ => Le.none _
  | n + 1, cnt, t, o => by
    rw [sepM, sepM]
    exact ite_le (caseR_le (h _ _) (fun _ _ => caseR_le (h _ _)
      (fun _ _ => opK_le fun _ => addM_le fun _ => addM_le fun _ => sepM_le h p s skip more fin n _ _ _)
      (fun _ _ => Le.refl _)) (fun _ _ => Le.refl _)) (Le.refl _)

theorem stepM_le {mt mt' : List ι → Pat ι β → Nat → Option (Res Span)}
    {pr pr' : Pat ι β → Nat → Option (Res Span)} (hm : ∀ d p o, Le (mt d p o) (mt' d p o))
    (hp : ∀ p o, Le (pr p o) (pr' p o)) (n : Nat) (d : List ι) (p : Pat ι β) (o : Nat) :
    Le (stepM b G n mt pr d p o) (stepM b G (n + 1) mt' pr' d p o) := by
  have r0 {γ : Type} (x : Option γ) : Le x x := Le.refl x
  have hs := step_le (G := G) hm hp n d p o
  cases p with
  | start | anchorEnd | consume _ | consumeAll | lit _ => exact r0 _
  | once u c =>
    refine caseO_le (r0 _) (fun it => opK_le fun _ => ?_) (fun _ => r0 _)
    cases it with
    | nil => exact r0 _
    | cons _ _ => exact caseO_le (testItemM_le hm _ _ _ _ _) (fun _ => r0 _) (fun _ => r0 _)
  | optU u c =>
    refine opK_le fun _ => caseO_le (r0 _) (fun it => ?_) (fun _ => r0 _)
    cases it with
    | nil => exact r0 _
    | cons _ _ => exact caseO_le (testItemM_le hm _ _ _ _ _) (fun _ => r0 _) (fun _ => r0 _)
  | many0 u c =>
    exact opK_le fun _ => caseO_le (r0 _) (fun it =>
      caseO_le (scan_le (testItemM_le hm _ _ _ _) _ _ _ _) (fun _ => r0 _) (fun _ => r0 _)) (fun _ => r0 _)
  | many1 u c =>
    exact caseO_le (r0 _) (fun it => opK_le fun _ =>
      caseO_le (scan_le (testItemM_le hm _ _ _ _) _ _ _ _) (fun _ => r0 _) (fun _ => r0 _)) (fun _ => r0 _)
  | between m k u c =>
    exact caseO_le (r0 _) (fun it => opK_le fun _ => opK_le fun _ => ite_le
      (caseO_le (scanM_le (testItemM_le hm _ _ _ _) _ _ _ _) (fun _ => r0 _) (fun _ => r0 _)) (r0 _))
      (fun _ => r0 _)
  | times rg u c =>
    exact caseO_le (r0 _) (fun it => opK_le fun _ => opK_le fun _ => ite_le
      (caseO_le (scanM_le (testItemM_le hm _ _ _ _) _ _ _ _) (fun _ => r0 _) (fun _ => r0 _)) (r0 _))
      (fun _ => r0 _)
  | thenU u v c =>
    refine caseO_le (r0 _) (fun it => opK_le fun _ => opK_le fun _ => ite_le ?_ (r0 _)) (fun _ => r0 _)
    match it with
    | [] => exact r0 _
    | [_] => exact r0 _
    | fst :: snd :: it' =>
      exact caseO_le (testItemM_le hm _ _ _ _ _) (fun _ => ite_le
        (caseO_le (testItemM_le hm _ _ _ _ _) (fun _ => r0 _) (fun _ => r0 _)) (r0 _)) (fun _ => r0 _)
  | thn x y | pre x y | suf x y =>
    exact caseR_le (hm _ _ _) (fun _ _ => caseR_le (hm _ _ _) (fun _ _ => r0 _) (fun _ _ => r0 _)) (fun _ _ => r0 _)
  | ifThen x t y | enclose x t y =>
    exact caseR_le (hm _ _ _) (fun _ _ => caseR_le (hm _ _ _)
      (fun _ _ => addM_le fun _ => caseR_le (hm _ _ _) (fun _ _ => r0 _) (fun _ _ => r0 _)) (fun _ _ => r0 _))
      (fun _ _ => r0 _)
  | sepOnce x y z =>
    exact caseR_le (hm _ _ _) (fun _ _ => addM_le fun _ => caseR_le (hm _ _ _)
      (fun _ _ => addM_le fun _ => caseR_le (hm _ _ _) (fun _ _ => r0 _) (fun _ _ => r0 _)) (fun _ _ => r0 _))
      (fun _ _ => r0 _)
  | longest x y =>
    exact caseR_le (hm _ _ _) (fun _ _ => caseR_le (hm _ _ _) (fun _ _ => r0 _) (fun _ _ => r0 _))
      (fun _ _ => caseR_le (hm _ _ _) (fun _ _ => r0 _) (fun _ _ => r0 _))
  | rep q r => exact repM_le (hm d) _ _ _ n 0 _ o
  | rep2 q m k => exact repM_le (hm d) _ _ _ n 0 _ o
  | collect q min => exact repM_le (hm d) _ _ _ n 0 _ o
  | sep q s skip min => exact sepM_le (hm d) _ _ _ _ _ n 0 _ o
  | sep2 q s skip m k => exact sepM_le (hm d) _ _ _ _ _ n 0 _ o
  | sepCollect q s skip min => exact sepM_le (hm d) _ _ _ _ _ n 0 _ o
  | _ => exact hs

theorem parseM_le : ∀ (n : Nat) (pol : Option (Pat ι β)) (d : List ι) (p : Pat ι β) (o : Nat),
    Le (parseM b G n pol d p o) (parseM b G (n + 1) pol d p o)
  | 0, _, _, _, _ => Le.none _
  | n + 1, pol, d, p, o =>
    stepM_le (matWith_le (parseM_le n) pol) (parseM_le n pol d) n d p o

theorem tryMatM_mono (pol : Option (Pat ι β)) (d : List ι) (p : Pat ι β) (o : Nat) :
    Mono fun n => tryMatM b G n pol d p o := by
  intro n m h
  induction h with
  | refl => exact Le.refl _
  | step _ ih => exact Le.trans ih (matWith_le (parseM_le _) _ _ _ _)

/-- A build returns one result. -/
theorem RunsOn.unique {pol : Option (Pat ι β)} {d : List ι} {p : Pat ι β} {o : Nat} {r r' : Res Span}
    (h : RunsOn b G pol d p o r) (h' : RunsOn b G pol d p o r') : r = r' := by
  obtain ⟨n, hn⟩ := h
  obtain ⟨m, hm⟩ := h'
  have h1 := tryMatM_mono pol d p o n (max n m) (Nat.le_max_left _ _) _ hn
  have h2 := tryMatM_mono pol d p o m (max n m) (Nat.le_max_right _ _) _ hm
  exact Option.some.inj (h1.symm.trans h2)

/-! ## Building values -/

variable {H : Handler ι β σ}

theorem countK_le {γ : Type} {cnt : Nat} {k k' : Nat → Option (CRes σ γ)} (hk : ∀ a, Le (k a) (k' a)) :
    Le (countK b cnt k) (countK b cnt k') := by
  unfold countK
  cases b.add cnt 1 with
  | none => exact Le.refl _
  | some v => exact hk v

section Loops

variable {cn cn' : Pat ι β → σ → Nat → Option (CRes σ (Val β))} {ms ms' : Nat → Option (Res Span)}
  (h : ∀ p st o, Le (cn p st o) (cn' p st o))
include h

theorem conRepM_le (p : Pat ι β) (more room : Nat → Bool)
    (fin : Nat → List (Val β) → σ → Nat → Option (CRes σ (Val β))) :
    ∀ (n cnt : Nat) (vals : List (Val β)) (st : σ) (o : Nat),
      Le (conRepM b cn p more room fin n cnt vals st o) (conRepM b cn' p more room fin (n + 1) cnt vals st o)
  | 0, _, _, _, _ => Le.none _
  | n + 1, cnt, vals, st, o => by
    rw [conRepM, conRepM]
    exact ite_le (caseC_le (h _ _ _) (fun _ _ _ => ite_le (countK_le fun _ =>
      conRepM_le p more room fin n _ _ _ _) (Le.refl _)) (fun _ _ _ => Le.refl _)) (Le.refl _)

variable (hs : ∀ o, Le (ms o) (ms' o))
include hs

theorem conSepM_le (p : Pat ι β) (skip : Bool) (more room : Nat → Bool)
    (fin : Nat → List (Val β) → σ → Nat → Option (CRes σ (Val β))) :
    ∀ (n cnt : Nat) (vals : List (Val β)) (st : σ) (o : Nat),
      Le (conSepM b cn ms p skip more room fin n cnt vals st o)
        (conSepM b cn' ms' p skip more room fin (n + 1) cnt vals st o)
  | 0, _, _, _, _ => Le.none _
  | n + 1, cnt, vals, st, o => by
    rw [conSepM, conSepM]
    exact ite_le (caseC_le (h _ _ _) (fun _ _ _ => caseM_le (hs _)
      (fun _ _ => ite_le (countK_le fun _ => conSepM_le p skip more room fin n _ _ _ _) (Le.refl _))
      (fun _ _ => Le.refl _)) (fun _ _ _ => Le.refl _)) (Le.refl _)

theorem conSepCollectM_le (p : Pat ι β) (skip : Bool)
    (fin : Nat → List (Val β) → σ → Nat → Option (CRes σ (Val β))) :
    ∀ (n : Nat) (ended : Bool) (cnt : Nat) (vals : List (Val β)) (st : σ) (o : Nat),
      Le (conSepCollectM b cn ms p skip fin n ended cnt vals st o)
        (conSepCollectM b cn' ms' p skip fin (n + 1) ended cnt vals st o)
  | 0, _, _, _, _, _ => Le.none _
  | n + 1, ended, cnt, vals, st, o => by
    rw [conSepCollectM, conSepCollectM]
    exact caseC_le (h _ _ _) (fun _ _ _ => caseM_le (hs _)
      (fun _ _ => ite_le (Le.refl _) (countK_le fun _ => conSepCollectM_le p skip fin n _ _ _ _ _))
      (fun _ _ => ite_le (Le.refl _) (ite_le (countK_le fun _ => conSepCollectM_le p skip fin n _ _ _ _ _)
        (Le.refl _)))) (fun _ _ _ => Le.refl _)

end Loops

theorem conM_le : ∀ (n : Nat) (pol : Option (Pat ι β)) (d : List ι) (p : Pat ι β) (st : σ) (o : Nat),
    Le (conM b G H n pol d p st o) (conM b G H (n + 1) pol d p st o)
  | 0, _, _, _, _, _ => Le.none _
  | n + 1, pol, d, p, st, o => by
    have hm : ∀ q o, Le (tryMatM b G n pol d q o) (tryMatM b G (n + 1) pol d q o) :=
      fun q o => tryMatM_mono pol d q o n (n + 1) (by omega)
    have hc : ∀ q st o, Le (conM b G H n pol d q st o) (conM b G H (n + 1) pol d q st o) :=
      fun q st o => conM_le n pol d q st o
    have hgen := (approx_conStep (G := G) (H := H)
      (mt := fun k p o => if k ≤ n then tryMatM b G n pol d p o else tryMatM b G (n + 1) pol d p o)
      (hm := fun p o => approx_two n (hm p o))
      (leaf := fun k => if k ≤ n then tryMatM b G (n + 1) pol d p o else tryMatM b G (n + 2) pol d p o)
      (hl := approx_two n (tryMatM_mono pol d p o (n + 1) (n + 2) (by omega)))
      (cn := fun k p st o => if k ≤ n then conM b G H n pol d p st o else conM b G H (n + 1) pol d p st o)
      (hc := fun p st o => approx_two n (hc p st o)) d p st o).1 n (n + 1) (by omega)
    have hf : ¬ n + 1 ≤ n := by omega
    simp only [hf, if_false, Nat.le_refl, if_true] at hgen
    simp only [conM]
    cases p with
    | rep q r => exact conRepM_le hc _ _ _ _ n 0 [] st o
    | rep2 q m k => exact conRepM_le hc _ _ _ _ n 0 [] st o
    | collect q min => exact conRepM_le hc _ _ _ _ n 0 [] st o
    | sep2 q s skip m k => exact conSepM_le hc (hm s) _ _ _ _ _ n 0 [] st o
    | sepCollect q s skip min => exact conSepCollectM_le hc (hm s) _ _ _ n false 0 [] st o
    | _ => exact hgen

theorem conM_mono (pol : Option (Pat ι β)) (d : List ι) (p : Pat ι β) (st : σ) (o : Nat) :
    Mono fun n => conM b G H n pol d p st o := by
  intro n m h
  induction h with
  | refl => exact Le.refl _
  | step _ ih => exact Le.trans ih (conM_le _ _ _ _ _ _)

theorem ConstructsOn.unique {pol : Option (Pat ι β)} {d : List ι} {p : Pat ι β} {st : σ} {o : Nat}
    {r r' : CRes σ (Val β)} (h : ConstructsOn b G H pol d p st o r)
    (h' : ConstructsOn b G H pol d p st o r') : r = r' := by
  obtain ⟨n, hn⟩ := h
  obtain ⟨m, hm⟩ := h'
  have a := conM_mono (b := b) (G := G) (H := H) pol d p st o n (n + m) (by omega) r hn
  have c := conM_mono (b := b) (G := G) (H := H) pol d p st o m (n + m) (by omega) r' hm
  simp only at a c
  rw [a] at c
  exact Option.some.inj c

end Neure
