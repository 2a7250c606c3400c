import Verif.RefactorSpec
import Verif.Eqs
import Verif.CtorDen
/-!
# Lemmas about refactored grammars

The evaluators are monotone not only in what they call but also along
`SameShape`.
-/

namespace Neure

set_option linter.unusedSectionVars false

variable {ι β σ : Type} [Item ι] {G G' : Rules ι β} {R : Pat ι β → Pat ι β → Prop}

/-! ## Matching -/

section
variable {mt mt' : List ι → Pat ι β → Nat → Option (Res Span)}

theorem check_rel (h : ∀ d p p' o, R p p' → Le (mt d p o) (mt' d p' o)) (d : List ι) (o : Nat)
    {c c' : Cond ι β} (hc : SameCond R c c') (pr : Nat × ι) :
    Le (check mt d o c pr) (check mt' d o c' pr) := by
  cases hc with
  | empty => exact Le.refl _
  | fn f => exact Le.refl _
  | @regex p p' hp =>
    unfold check
    simp only
    cases origAt d (o + pr.1) with
    | err e => exact Le.refl _
    | panic => exact Le.refl _
    | ok d' =>
      simp only
      intro x hx
      cases hm : mt d' p 0 with
      | none => simp [hm] at hx
      | some v => rw [h _ _ _ _ hp _ hm]; rw [hm] at hx; exact hx

theorem testItem_rel (h : ∀ d p p' o, R p p' → Le (mt d p o) (mt' d p' o)) (d : List ι) (o : Nat)
    (u : Neu ι) {c c' : Cond ι β} (hc : SameCond R c c') (pr : Nat × ι) :
    Le (testItem mt d o u c pr) (testItem mt' d o u c' pr) := by
  unfold testItem
  exact ite_le (check_rel h _ _ hc _) (Le.refl _)

end

section
variable {mt mt' : Pat ι β → Nat → Option (Res Span)}

theorem choiceLoop_rel (h : ∀ p p' o, R p p' → Le (mt p o) (mt' p' o)) (e : Error) (beg : Nat)
    {l l' : List (Pat ι β × Option (Val β))} (hl : SameItems R l l') (o : Nat) :
    Le (choiceLoop mt e beg l o) (choiceLoop mt' e beg l' o) := by
  induction hl generalizing o with
  | nil => exact Le.refl _
  | cons v hp _ ih =>
    simp only [choiceLoop]
    exact caseR_le (h _ _ _ hp) (fun _ _ => Le.refl _) (fun _ _ => ih _)

theorem ltmLoop_rel (h : ∀ p p' o, R p p' → Le (mt p o) (mt' p' o)) (e : Error) (beg : Nat)
    {l l' : List (Pat ι β × Option (Val β))} (hl : SameItems R l l') (best : Option Span) (o : Nat) :
    Le (ltmLoop mt e beg l best o) (ltmLoop mt' e beg l' best o) := by
  induction hl generalizing best o with
  | nil => cases best <;> exact Le.refl _
  | cons v hp _ ih =>
    simp only [ltmLoop]
    exact caseR_le (h _ _ _ hp) (fun _ _ => ih _ _) (fun _ _ => ih _ _)

theorem repLoop_rel (h : ∀ p p' o, R p p' → Le (mt p o) (mt' p' o)) {p p' : Pat ι β} (hp : R p p')
    {more : Nat → Bool} {fin : Nat → Span → Nat → Option (Res Span)} (n cnt : Nat) (t : Span)
    (o : Nat) : Le (repLoop mt p more fin n cnt t o) (repLoop mt' p' more fin n cnt t o) := by
  induction n generalizing cnt t o with
  | zero => exact Le.none _
  | succ n ih =>
    simp only [repLoop]
    exact ite_le (caseR_le (h _ _ _ hp) (fun _ _ => addK_le fun _ => ih _ _ _)
      (fun _ _ => Le.refl _)) (Le.refl _)

theorem sepLoop_rel (h : ∀ p p' o, R p p' → Le (mt p o) (mt' p' o)) {p p' s s' : Pat ι β}
    (hp : R p p') (hs : R s s') {skip : Bool} {more : Nat → Bool}
    {fin : Nat → Span → Nat → Option (Res Span)} (n cnt : Nat) (t : Span) (o : Nat) :
    Le (sepLoop mt p s skip more fin n cnt t o) (sepLoop mt' p' s' skip more fin n cnt t o) := by
  induction n generalizing cnt t o with
  | zero => exact Le.none _
  | succ n ih =>
    simp only [sepLoop]
    exact ite_le (caseR_le (h _ _ _ hp) (fun _ _ => caseR_le (h _ _ _ hs)
      (fun _ _ => addK_le fun _ => addK_le fun _ => ih _ _ _)
      (fun _ _ => Le.refl _)) (fun _ _ => Le.refl _)) (Le.refl _)

end

set_option maxHeartbeats 1000000 in
theorem step_rel {mt mt' : List ι → Pat ι β → Nat → Option (Res Span)}
    {pr pr' : Pat ι β → Nat → Option (Res Span)}
    (hm : ∀ d p p' o, R p p' → Le (mt d p o) (mt' d p' o))
    (hp : ∀ p p' o, R p p' → Le (pr p o) (pr' p' o)) (n : Nat) (d : List ι) {p p' : Pat ι β}
    (h : SameShape G G' R p p') (o : Nat) :
    Le (step G n mt pr d p o) (step G' n mt' pr' d p' o) := by
  have r {γ : Type} (x : Option γ) : Le x x := Le.refl x
  have hmd := fun p p' o => hm d p p' o
  cases h with
  | empty | fail | start | anchorEnd | consume | consumeAll | lit | native => exact r _
  | once u hc =>
    simp only [step]; unfold onceParse
    refine caseO_le (r _) (fun it => remK_le fun _ => ?_) (fun _ => r _)
    cases it with
    | nil => exact r _
    | cons _ _ => exact caseO_le (testItem_rel hm _ _ _ hc _) (fun _ => r _) (fun _ => r _)
  | optU u hc =>
    simp only [step]; unfold optUParse
    refine remK_le fun _ => caseO_le (r _) (fun it => ?_) (fun _ => r _)
    cases it with
    | nil => exact r _
    | cons _ _ => exact caseO_le (testItem_rel hm _ _ _ hc _) (fun _ => r _) (fun _ => r _)
  | many0 u hc =>
    simp only [step]; unfold many0Parse
    exact remK_le fun _ => caseO_le (r _) (fun it =>
      caseO_le (scan_le (testItem_rel hm _ _ _ hc) _ _ _ _) (fun _ => r _) (fun _ => r _))
      (fun _ => r _)
  | many1 u hc =>
    simp only [step]; unfold many1Parse
    exact caseO_le (r _) (fun it => remK_le fun _ =>
      caseO_le (scan_le (testItem_rel hm _ _ _ hc) _ _ _ _) (fun _ => r _) (fun _ => r _))
      (fun _ => r _)
  | between m k u hc =>
    simp only [step]; unfold betweenParse
    exact caseO_le (r _) (fun it => remK_le fun _ => ite_le
      (caseO_le (scan_le (testItem_rel hm _ _ _ hc) _ _ _ _) (fun _ => r _) (fun _ => r _)) (r _))
      (fun _ => r _)
  | times rg u hc =>
    simp only [step]; unfold timesParse
    exact caseO_le (r _) (fun it => remK_le fun _ => ite_le
      (caseO_le (scan_le (testItem_rel hm _ _ _ hc) _ _ _ _) (fun _ => r _) (fun _ => r _)) (r _))
      (fun _ => r _)
  | thenU u v hc =>
    simp only [step]; unfold thenUParse
    refine caseO_le (r _) (fun it => remK_le fun _ => ite_le ?_ (r _)) (fun _ => r _)
    match it with
    | [] => exact r _
    | [_] => exact r _
    | fst :: snd :: it' =>
      exact caseO_le (testItem_rel hm _ _ _ hc _) (fun _ => ite_le
        (caseO_le (testItem_rel hm _ _ _ hc _) (fun _ => r _) (fun _ => r _)) (r _)) (fun _ => r _)
  | assert v h => exact caseR_le (hm _ _ _ _ h) (fun _ _ => r _) (fun _ _ => r _)
  | thn h1 h2 | pre h1 h2 | suf h1 h2 =>
    exact caseR_le (hm _ _ _ _ h1) (fun _ _ => caseR_le (hm _ _ _ _ h2) (fun _ _ => r _)
      (fun _ _ => r _)) (fun _ _ => r _)
  | ifThen h1 h2 h3 | enclose h1 h2 h3 =>
    exact caseR_le (hm _ _ _ _ h1) (fun _ _ => caseR_le (hm _ _ _ _ h2)
      (fun _ _ => addK_le fun _ => caseR_le (hm _ _ _ _ h3) (fun _ _ => r _) (fun _ _ => r _))
      (fun _ _ => r _)) (fun _ _ => r _)
  | sepOnce h1 h2 h3 =>
    exact caseR_le (hm _ _ _ _ h1) (fun _ _ => addK_le fun _ => caseR_le (hm _ _ _ _ h2)
      (fun _ _ => addK_le fun _ => caseR_le (hm _ _ _ _ h3) (fun _ _ => r _) (fun _ _ => r _))
      (fun _ _ => r _)) (fun _ _ => r _)
  | or h1 h2 =>
    exact caseR_le (hm _ _ _ _ h1) (fun _ _ => r _) (fun _ _ => caseR_le (hm _ _ _ _ h2)
      (fun _ _ => r _) (fun _ _ => r _))
  | longest h1 h2 =>
    exact caseR_le (hm _ _ _ _ h1) (fun _ _ => caseR_le (hm _ _ _ _ h2)
      (fun _ _ => r _) (fun _ _ => r _)) (fun _ _ => caseR_le (hm _ _ _ _ h2)
      (fun _ _ => r _) (fun _ _ => r _))
  | opt h => exact caseR_le (hm _ _ _ _ h) (fun _ _ => r _) (fun _ _ => r _)
  | choice e hl => exact choiceLoop_rel hmd _ _ hl _
  | ltm e hl => exact ltmLoop_rel hmd _ _ hl _ _
  | rep rg h => exact repLoop_rel hmd h _ _ _ _
  | rep2 m k h => exact repLoop_rel hmd h _ _ _ _
  | collect m h => exact repLoop_rel hmd h _ _ _ _
  | sep k m h h' => exact sepLoop_rel hmd h h' _ _ _ _
  | sep2 k m l h h' => exact sepLoop_rel hmd h h' _ _ _ _
  | sepCollect k m h h' => exact sepLoop_rel hmd h h' _ _ _ _
  | branch t h1 h2 =>
    refine caseO_le (r _) (fun b => ?_) (fun _ => r _)
    cases b
    · exact caseR_le (hm _ _ _ _ h2) (fun _ _ => r _) (fun _ _ => r _)
    · exact caseR_le (hm _ _ _ _ h1) (fun _ _ => r _) (fun _ _ => r _)
  | map f h => exact hm _ _ _ _ h
  | pat h => exact hm _ _ _ _ h
  | @build _ _ f f' h hf =>
    refine caseR_le (hm _ _ _ _ h) (fun s o1 => ?_) (fun _ _ => r _)
    have := hf d o1 s
    generalize f d o1 s = x at this
    generalize f' d o1 s = y at this
    cases this with
    | ok o2 hb =>
      simp only [caseR]
      exact caseR_le (hm _ _ _ _ hb) (fun _ _ => r _) (fun _ _ => r _)
    | err => exact r _
    | panic => exact r _
  | dthen => exact r _
  | unset h1 h2 => simp only [step, h1, h2]; exact r _
  | cell h1 h2 h3 => simp only [step, h1, h2]; exact hp _ _ _ h3

theorem opens_parse {p q : Pat ι β} (h : Opens G p q) (n : Nat) (pol : Option (Pat ι β))
    (d : List ι) (o : Nat) : Le (parse G n pol d p o) (parse G n pol d q o) := by
  induction h with
  | refl => exact Le.refl _
  | @step i q r hi _ ih =>
    refine Le.trans ?_ ih
    cases n with
    | zero => exact Le.none _
    | succ n =>
      have : parse G (n + 1) pol d (.cell i) o = parse G n pol d q o := by
        simp only [parse, step, hi]
      rw [this]
      exact parse_le_succ _ _ _ _ _ _

theorem opens_parseL {p q : Pat ι β} (h : Opens G p q) (pol : Option (Pat ι β))
    (d : List ι) (o : Nat) : parseL G pol d p o = parseL G pol d q o := by
  induction h with
  | refl => rfl
  | @step i q r hi _ ih => rw [parseL_cell, hi]; exact ih

theorem matWith_rel {pr pr' : Option (Pat ι β) → List ι → Pat ι β → Nat → Option (Res Span)}
    (h : ∀ pol pol', SamePolicy R pol pol' → ∀ d p p' o, R p p' → Le (pr pol d p o) (pr' pol' d p' o))
    {pol pol' : Option (Pat ι β)} (hpol : SamePolicy R pol pol') (d : List ι) {p p' : Pat ι β}
    (hp : R p p') (o : Nat) : Le (matWith pr pol d p o) (matWith pr' pol' d p' o) := by
  cases hpol with
  | none => exact h _ _ .none _ _ _ _ hp
  | some hq =>
    exact caseR_le (h _ _ .none _ _ _ _ hq) (fun _ _ => h _ _ (.some hq) _ _ _ _ hp)
      (fun _ _ => Le.refl _)

theorem step_stepL (G : Rules ι β) (mt : List ι → Pat ι β → Nat → Option (Res Span))
    (pr : Pat ι β → Nat → Option (Res Span)) (n : Nat) (d : List ι) (p : Pat ι β) (o : Nat) :
    Le (step G n mt pr d p o) (stepL G mt pr d p o) :=
  (approx_step (G := G) (mt := fun _ => mt) (pr := fun _ => pr) (fun _ _ _ => approx_const _)
    (fun _ _ => approx_const _) d p o).le n

theorem parse_refactor (hR : Refactoring G G' R) (n : Nat) {pol pol' : Option (Pat ι β)}
    (hpol : SamePolicy R pol pol') (d : List ι) (p p' : Pat ι β) (o : Nat) (hp : R p p') :
    Le (parse G n pol d p o) (parseL G' pol' d p' o) := by
  induction n generalizing pol pol' d p p' o with
  | zero => exact Le.none _
  | succ n ih =>
    obtain ⟨q, q', h1, h2, h3⟩ := hR p p' hp
    refine Le.trans (opens_parse h1 _ _ _ _) ?_
    rw [opens_parseL h2, parseL_eq]
    refine Le.trans ?_ (step_stepL _ _ _ n _ _ _)
    exact step_rel (R := R) (fun d p p' o h => matWith_rel (R := R) (fun _ _ hpol d p p' o h => ih hpol d p p' o h)
      hpol d h o) (fun p p' o h => ih hpol d p p' o h) n d h3 o

theorem tryMat_refactor (hR : Refactoring G G' R) (n : Nat) {pol pol' : Option (Pat ι β)}
    (hpol : SamePolicy R pol pol') (d : List ι) (p p' : Pat ι β) (o : Nat) (hp : R p p') :
    Le (tryMat G n pol d p o) (matL G' pol' d p' o) :=
  matWith_rel (fun _ _ hpol d p p' o h => parse_refactor hR n hpol d p p' o h) hpol d hp o

/-! ## Constructing -/

section
variable {cn cn' : Pat ι β → σ → Nat → Option (CRes σ (Val β))}

theorem conChoice_rel (h : ∀ p p' st o, R p p' → Le (cn p st o) (cn' p' st o)) (e : Error)
    (beg : Nat) {l l' : List (Pat ι β × Option (Val β))} (hl : SameItems R l l') (st : σ) (o : Nat) :
    Le (conChoice cn e beg l st o) (conChoice cn' e beg l' st o) := by
  induction hl generalizing st o with
  | nil => exact Le.refl _
  | cons v hp _ ih =>
    simp only [conChoice]
    exact caseC_le (h _ _ _ _ hp) (fun _ _ _ => Le.refl _) (fun _ _ _ => ih _ _)

theorem conLtm_rel (h : ∀ p p' st o, R p p' → Le (cn p st o) (cn' p' st o)) (e : Error) (beg : Nat)
    {l l' : List (Pat ι β × Option (Val β))} (hl : SameItems R l l') (best : Option (Val β))
    (stop : Nat) (st : σ) (o : Nat) :
    Le (conLtm cn e beg l best stop st o) (conLtm cn' e beg l' best stop st o) := by
  induction hl generalizing best stop st o with
  | nil => cases best <;> exact Le.refl _
  | cons v hp _ ih =>
    simp only [conLtm]
    exact caseC_le (h _ _ _ _ hp) (fun _ _ _ => ite_le (ih _ _ _ _) (ih _ _ _ _))
      (fun _ _ _ => ih _ _ _ _)

theorem conRep_rel (h : ∀ p p' st o, R p p' → Le (cn p st o) (cn' p' st o)) {p p' : Pat ι β}
    (hp : R p p') {more room : Nat → Bool}
    {fin : Nat → List (Val β) → σ → Nat → Option (CRes σ (Val β))} (n cnt : Nat)
    (vals : List (Val β)) (st : σ) (o : Nat) :
    Le (conRep cn p more room fin n cnt vals st o) (conRep cn' p' more room fin n cnt vals st o) := by
  induction n generalizing cnt vals st o with
  | zero => exact Le.none _
  | succ n ih =>
    simp only [conRep]
    exact ite_le (caseC_le (h _ _ _ _ hp) (fun _ _ _ => ite_le (ih _ _ _ _) (Le.refl _))
      (fun _ _ _ => Le.refl _)) (Le.refl _)

variable {ms ms' : Nat → Option (Res Span)}

theorem conSep_rel (h : ∀ p p' st o, R p p' → Le (cn p st o) (cn' p' st o))
    (hs : ∀ o, Le (ms o) (ms' o)) {p p' : Pat ι β} (hp : R p p') {skip : Bool}
    {more room : Nat → Bool} {fin : Nat → List (Val β) → σ → Nat → Option (CRes σ (Val β))}
    (n cnt : Nat) (vals : List (Val β)) (st : σ) (o : Nat) :
    Le (conSep cn ms p skip more room fin n cnt vals st o)
      (conSep cn' ms' p' skip more room fin n cnt vals st o) := by
  induction n generalizing cnt vals st o with
  | zero => exact Le.none _
  | succ n ih =>
    simp only [conSep]
    exact ite_le (caseC_le (h _ _ _ _ hp) (fun _ _ _ => caseM_le (hs _)
      (fun _ _ => ite_le (ih _ _ _ _) (Le.refl _)) (fun _ _ => Le.refl _))
      (fun _ _ _ => Le.refl _)) (Le.refl _)

theorem conSepCollect_rel (h : ∀ p p' st o, R p p' → Le (cn p st o) (cn' p' st o))
    (hs : ∀ o, Le (ms o) (ms' o)) {p p' : Pat ι β} (hp : R p p') {skip : Bool}
    {fin : Nat → List (Val β) → σ → Nat → Option (CRes σ (Val β))} (n : Nat) (ended : Bool)
    (cnt : Nat) (vals : List (Val β)) (st : σ) (o : Nat) :
    Le (conSepCollect cn ms p skip fin n ended cnt vals st o)
      (conSepCollect cn' ms' p' skip fin n ended cnt vals st o) := by
  induction n generalizing ended cnt vals st o with
  | zero => exact Le.none _
  | succ n ih =>
    simp only [conSepCollect]
    exact caseC_le (h _ _ _ _ hp) (fun _ _ _ => caseM_le (hs _)
      (fun _ _ => ite_le (Le.refl _) (ih _ _ _ _ _))
      (fun _ _ => ite_le (Le.refl _) (ite_le (ih _ _ _ _ _) (Le.refl _))))
      (fun _ _ _ => Le.refl _)

end

theorem caseT_le {α γ : Type} {r : Out α} {k k' : α → Option (CRes σ γ)}
    {e e' : Error → Option (CRes σ γ)} (hk : ∀ a, Le (k a) (k' a)) (he : ∀ a, Le (e a) (e' a)) :
    Le (caseT r k e) (caseT r k' e') := by
  cases r
  · exact hk _
  · exact he _
  · exact Le.refl _

theorem invokeK_le {H : Handler ι β σ} {d : List ι} {st : σ} {r r' : Option (Res Span)}
    (h : Le r r') : Le (invokeK H d st r) (invokeK H d st r') :=
  caseM_le h (fun _ _ => Le.refl _) (fun _ _ => Le.refl _)

theorem conStep_rel {H : Handler ι β σ} {mt mt' : Pat ι β → Nat → Option (Res Span)}
    {leaf leaf' : Option (Res Span)} {cn cn' : Pat ι β → σ → Nat → Option (CRes σ (Val β))}
    (hm : ∀ p p' o, R p p' → Le (mt p o) (mt' p' o)) (hl : Le leaf leaf')
    (hc : ∀ p p' st o, R p p' → Le (cn p st o) (cn' p' st o)) (n : Nat) (d : List ι)
    {p p' : Pat ι β} (h : SameShape G G' R p p') (st : σ) (o : Nat) :
    Le (conStep G H n mt leaf cn d p st o) (conStep G' H n mt' leaf' cn' d p' st o) := by
  have r {γ : Type} (x : Option γ) : Le x x := Le.refl x
  cases h with
  | empty | fail | start | anchorEnd | consume | consumeAll | lit | native | once | optU | many0
  | many1 | between | times | thenU | assert | build => exact invokeK_le hl
  | pat h => exact invokeK_le (hm _ _ _ h)
  | thn h1 h2 =>
    exact caseC_le (hc _ _ _ _ h1) (fun _ _ _ => caseC_le (hc _ _ _ _ h2) (fun _ _ _ => r _)
      (fun _ _ _ => r _)) (fun _ _ _ => r _)
  | ifThen h1 h2 h3 =>
    exact caseC_le (hc _ _ _ _ h1) (fun _ _ _ => caseM_le (hm _ _ _ h2)
      (fun _ _ => caseC_le (hc _ _ _ _ h3) (fun _ _ _ => r _) (fun _ _ _ => r _))
      (fun _ _ => r _)) (fun _ _ _ => r _)
  | pre h1 h2 =>
    exact caseM_le (hm _ _ _ h1) (fun _ _ => caseC_le (hc _ _ _ _ h2) (fun _ _ _ => r _)
      (fun _ _ _ => r _)) (fun _ _ => r _)
  | suf h1 h2 =>
    exact caseC_le (hc _ _ _ _ h1) (fun _ _ _ => caseM_le (hm _ _ _ h2) (fun _ _ => r _)
      (fun _ _ => r _)) (fun _ _ _ => r _)
  | enclose h1 h2 h3 =>
    exact caseM_le (hm _ _ _ h1) (fun _ _ => caseC_le (hc _ _ _ _ h2)
      (fun _ _ _ => caseM_le (hm _ _ _ h3) (fun _ _ => r _) (fun _ _ => r _))
      (fun _ _ _ => r _)) (fun _ _ => r _)
  | sepOnce h1 h2 h3 =>
    exact caseC_le (hc _ _ _ _ h1) (fun _ _ _ => caseM_le (hm _ _ _ h2)
      (fun _ _ => caseC_le (hc _ _ _ _ h3) (fun _ _ _ => r _) (fun _ _ _ => r _))
      (fun _ _ => r _)) (fun _ _ _ => r _)
  | or h1 h2 =>
    exact caseC_le (hc _ _ _ _ h1) (fun _ _ _ => r _) (fun _ _ _ => caseC_le (hc _ _ _ _ h2)
      (fun _ _ _ => r _) (fun _ _ _ => r _))
  | longest h1 h2 =>
    exact caseC_le (hc _ _ _ _ h1) (fun _ _ _ => caseC_le (hc _ _ _ _ h2)
      (fun _ _ _ => r _) (fun _ _ _ => r _)) (fun _ _ _ => caseC_le (hc _ _ _ _ h2)
      (fun _ _ _ => r _) (fun _ _ _ => r _))
  | opt h => exact caseC_le (hc _ _ _ _ h) (fun _ _ _ => r _) (fun _ _ _ => r _)
  | choice e hi => exact conChoice_rel hc _ _ hi _ _
  | ltm e hi => exact conLtm_rel hc _ _ hi _ _ _ _
  | rep rg h => exact conRep_rel hc h _ _ _ _ _
  | rep2 m k h => exact conRep_rel hc h _ _ _ _ _
  | collect m h => exact conRep_rel hc h _ _ _ _ _
  | sep k m h h' => exact conSep_rel hc (fun _ => hm _ _ _ h') h _ _ _ _ _
  | sep2 k m l h h' => exact conSep_rel hc (fun _ => hm _ _ _ h') h _ _ _ _ _
  | sepCollect k m h h' => exact conSepCollect_rel hc (fun _ => hm _ _ _ h') h _ _ _ _ _ _
  | branch t h1 h2 =>
    refine caseT_le (fun b => ?_) (fun _ => r _)
    cases b
    · exact caseC_le (hc _ _ _ _ h2) (fun _ _ _ => r _) (fun _ _ _ => r _)
    · exact caseC_le (hc _ _ _ _ h1) (fun _ _ _ => r _) (fun _ _ _ => r _)
  | map f h => exact caseC_le (hc _ _ _ _ h) (fun _ _ _ => r _) (fun _ _ _ => r _)
  | @dthen _ _ f f' h hf =>
    refine caseC_le (hc _ _ _ _ h) (fun v st1 o1 => ?_) (fun _ _ _ => r _)
    have := hf d o1 v
    generalize f d o1 v = x at this
    generalize f' d o1 v = y at this
    cases this with
    | ok o2 hb =>
      simp only [caseM]
      exact caseC_le (hc _ _ _ _ hb) (fun _ _ _ => r _) (fun _ _ _ => r _)
    | err => exact r _
    | panic => exact r _
  | unset h1 h2 => simp only [conStep, h1, h2]; exact r _
  | cell h1 h2 h3 => simp only [conStep, h1, h2]; exact hc _ _ _ _ h3

theorem opens_con {H : Handler ι β σ} {p q : Pat ι β} (h : Opens G p q) (n : Nat)
    (pol : Option (Pat ι β)) (d : List ι) (st : σ) (o : Nat) :
    Le (con G H n pol d p st o) (con G H n pol d q st o) := by
  induction h with
  | refl => exact Le.refl _
  | @step i q r hi _ ih =>
    refine Le.trans ?_ ih
    cases n with
    | zero => exact Le.none _
    | succ n =>
      have : con G H (n + 1) pol d (.cell i) st o = con G H n pol d q st o := by
        simp only [con, conStep, hi]
      rw [this]
      exact con_le_succ _ _ _ _ _ _ _ _

theorem opens_conL {H : Handler ι β σ} {p q : Pat ι β} (h : Opens G p q) (pol : Option (Pat ι β))
    (d : List ι) (st : σ) (o : Nat) : conL G H pol d p st o = conL G H pol d q st o := by
  induction h with
  | refl => rfl
  | @step i q r hi _ ih => rw [conL_cell, hi]; exact ih

theorem opens_matL {p q : Pat ι β} (h : Opens G p q) (pol : Option (Pat ι β))
    (d : List ι) (o : Nat) : matL G pol d p o = matL G pol d q o := by
  cases pol with
  | none => exact opens_parseL h _ _ _
  | some s => rw [matL_some, matL_some]; congr 1; funext _ o'; exact opens_parseL h _ _ _

theorem opens_tryMat {p q : Pat ι β} (h : Opens G p q) (n : Nat) (pol : Option (Pat ι β))
    (d : List ι) (o : Nat) : Le (tryMat G n pol d p o) (tryMat G n pol d q o) := by
  cases pol with
  | none => exact opens_parse h _ _ _ _
  | some s => exact caseR_le (Le.refl _) (fun _ _ => opens_parse h _ _ _ _) (fun _ _ => Le.refl _)

theorem conStep_conStepL (G : Rules ι β) (H : Handler ι β σ)
    (mt : Pat ι β → Nat → Option (Res Span)) (leaf : Option (Res Span))
    (cn : Pat ι β → σ → Nat → Option (CRes σ (Val β))) (n : Nat) (d : List ι) (p : Pat ι β) (st : σ)
    (o : Nat) : Le (conStep G H n mt leaf cn d p st o) (conStepL G H mt leaf cn d p st o) :=
  (approx_conStep (G := G) (H := H) (mt := fun _ => mt) (leaf := fun _ => leaf) (cn := fun _ => cn)
    (fun _ _ => approx_const _) (approx_const _) (fun _ _ _ => approx_const _) d p st o).le n

theorem con_refactor {H : Handler ι β σ} (hR : Refactoring G G' R) (n : Nat)
    {pol pol' : Option (Pat ι β)} (hpol : SamePolicy R pol pol') (d : List ι) (p p' : Pat ι β)
    (st : σ) (o : Nat) (hp : R p p') :
    Le (con G H n pol d p st o) (conL G' H pol' d p' st o) := by
  induction n generalizing p p' st o with
  | zero => exact Le.none _
  | succ n ih =>
    obtain ⟨q, q', h1, h2, h3⟩ := hR p p' hp
    refine Le.trans (opens_con h1 _ _ _ _ _) ?_
    rw [opens_conL h2, conL_eq]
    refine Le.trans ?_ (conStep_conStepL _ _ _ _ _ n _ _ _ _)
    refine conStep_rel (fun p p' o h => tryMat_refactor hR n hpol d p p' o h) ?_
      (fun p p' st o h => ih p p' st o h) n d h3 st o
    -- matching the opened patterns themselves
    refine Le.trans (b := matL G pol d q o) ((approx_tryMat G pol d q o).le _) ?_
    rw [← opens_matL h1, ← opens_matL h2]
    intro x hx
    obtain ⟨m, hm⟩ := runs_iff.mpr hx
    exact tryMat_refactor hR m hpol d p p' o hp x hm

/-! ## The relation itself -/

theorem sameCond_symm {c c' : Cond ι β} (h : SameCond R c c') :
    SameCond (fun a b => R b a) c' c := by cases h <;> constructor <;> assumption

theorem sameBuilt_symm {x y : Res (Pat ι β)} (h : SameBuilt R x y) :
    SameBuilt (fun a b => R b a) y x := by cases h <;> constructor <;> assumption

theorem sameItems_symm {l l' : List (Pat ι β × Option (Val β))} (h : SameItems R l l') :
    SameItems (fun a b => R b a) l' l := by
  induction h with
  | nil => exact .nil
  | cons v hp _ ih => exact .cons v hp ih

theorem sameShape_symm {p p' : Pat ι β} (h : SameShape G G' R p p') :
    SameShape G' G (fun a b => R b a) p' p := by
  cases h with
  | unset h1 h2 => exact .unset h2 h1
  | cell h1 h2 h3 => exact .cell h2 h1 h3
  | build h hf => exact .build h fun d o s => sameBuilt_symm (hf d o s)
  | dthen h hf => exact .dthen h fun d o s => sameBuilt_symm (hf d o s)
  | choice e h => exact .choice e (sameItems_symm h)
  | ltm e h => exact .ltm e (sameItems_symm h)
  | once _ h | many1 _ h | optU _ h | many0 _ h | between _ _ _ h | times _ _ h | thenU _ _ h =>
    constructor; exact sameCond_symm h
  | _ => constructor <;> assumption

theorem refactoring_symm (h : Refactoring G G' R) : Refactoring G' G (fun a b => R b a) := by
  intro p p' hp
  obtain ⟨q, q', h1, h2, h3⟩ := h _ _ hp
  exact ⟨q', q, h2, h1, sameShape_symm h3⟩

theorem sameCond_mono {S : Pat ι β → Pat ι β → Prop} (hRS : ∀ p p', R p p' → S p p')
    {c c' : Cond ι β} (h : SameCond R c c') : SameCond S c c' := by
  cases h with
  | regex h => exact .regex (hRS _ _ h)
  | empty => exact .empty
  | fn f => exact .fn f

theorem sameBuilt_mono {S : Pat ι β → Pat ι β → Prop} (hRS : ∀ p p', R p p' → S p p')
    {x y : Res (Pat ι β)} (h : SameBuilt R x y) : SameBuilt S x y := by
  cases h with
  | ok o h => exact .ok o (hRS _ _ h)
  | err e o => exact .err e o
  | panic => exact .panic

theorem sameItems_mono {S : Pat ι β → Pat ι β → Prop} (hRS : ∀ p p', R p p' → S p p')
    {l l' : List (Pat ι β × Option (Val β))} (h : SameItems R l l') : SameItems S l l' := by
  induction h with
  | nil => exact .nil
  | cons v hp _ ih => exact .cons v (hRS _ _ hp) ih

theorem sameShape_mono {S : Pat ι β → Pat ι β → Prop} (hRS : ∀ p p', R p p' → S p p')
    {p p' : Pat ι β} (h : SameShape G G' R p p') : SameShape G G' S p p' := by
  cases h with
  | unset h1 h2 => exact .unset h1 h2
  | cell h1 h2 h3 => exact .cell h1 h2 (hRS _ _ h3)
  | build h hf => exact .build (hRS _ _ h) fun d o s => sameBuilt_mono hRS (hf d o s)
  | dthen h hf => exact .dthen (hRS _ _ h) fun d o s => sameBuilt_mono hRS (hf d o s)
  | choice e h => exact .choice e (sameItems_mono hRS h)
  | ltm e h => exact .ltm e (sameItems_mono hRS h)
  | once _ h | many1 _ h | optU _ h | many0 _ h | between _ _ _ h | times _ _ h | thenU _ _ h =>
    constructor; exact sameCond_mono hRS h
  | _ => constructor <;> (apply hRS; assumption)

/-- Being refactored is itself a refactoring, the largest one. -/
theorem refactored_refactoring : Refactoring G G' (Refactored G G') := by
  rintro p p' ⟨R, hR, hp⟩
  obtain ⟨q, q', h1, h2, h3⟩ := hR _ _ hp
  exact ⟨q, q', h1, h2, sameShape_mono (fun a b h => ⟨R, hR, h⟩) h3⟩

/-- Every pattern has the shape of itself, if `R` relates its components to
themselves and the handles in it lead to related patterns. -/
theorem sameShape_self {p : Pat ι β} (hr : ∀ q, Child G q p → R q q)
    (hG : ∀ i, p = .cell i → G i = G' i) : SameShape G G' R p p := by
  have hcond : ∀ c : Cond ι β, (∀ q, c.Has q → R q q) → SameCond R c c := by
    intro c h
    cases c with
    | empty => exact .empty
    | fn f => exact .fn f
    | regex q => exact .regex (h q rfl)
  have hitems : ∀ l : List (Pat ι β × Option (Val β)), (∀ it ∈ l, R it.1 it.1) → SameItems R l l := by
    intro l
    induction l with
    | nil => intro _; exact .nil
    | cons it l ih =>
      intro h
      exact .cons it.2 (h it (by simp)) (ih fun x hx => h x (by simp [hx]))
  cases p with
  | once _ c | many1 _ c | optU _ c | many0 _ c | between _ _ _ c | times _ _ c | thenU _ _ c =>
    constructor; exact hcond c hr
  | choice e l => exact .choice e (hitems l fun it hit => hr _ ⟨it, hit, rfl⟩)
  | ltm e l => exact .ltm e (hitems l fun it hit => hr _ ⟨it, hit, rfl⟩)
  | build q f =>
    refine .build (hr _ (.inl rfl)) fun d o s => ?_
    cases hx : f d o s with
    | ok q' o' => exact .ok o' (hr _ (.inr ⟨d, o, s, o', hx⟩))
    | err e o' => exact .err e o'
    | panic => exact .panic
  | dthen q f =>
    refine .dthen (hr _ (.inl rfl)) fun d o s => ?_
    cases hx : f d o s with
    | ok q' o' => exact .ok o' (hr _ (.inr ⟨d, o, s, o', hx⟩))
    | err e o' => exact .err e o'
    | panic => exact .panic
  | cell i =>
    have hi := hG i rfl
    cases hx : G i with
    | none => exact .unset hx (by rw [← hi, hx])
    | some q => exact .cell hx (by rw [← hi, hx]) (hr _ hx)
  | assert q _ | opt q | rep q _ | rep2 q _ _ | collect q _ | map q _ | pat q =>
    constructor; exact hr _ rfl
  | thn a b | pre a b | suf a b | or a b | longest a b | branch _ a b =>
    constructor
    · exact hr _ (.inl rfl)
    · exact hr _ (.inr rfl)
  | sep a b _ _ | sep2 a b _ _ _ | sepCollect a b _ _ =>
    constructor
    · exact hr _ (.inl rfl)
    · exact hr _ (.inr rfl)
  | ifThen a b c | enclose a b c | sepOnce a b c =>
    constructor
    · exact hr _ (.inl rfl)
    · exact hr _ (.inr (.inl rfl))
    · exact hr _ (.inr (.inr rfl))
  | _ => constructor

end Neure
