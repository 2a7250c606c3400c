import Verif.ParamSpec
import Verif.Match
import Verif.Sub
/-!
# Lemmas about grammars that differ only in their values

With the same fuel the evaluators do the same on both sides.
-/

namespace Neure

set_option linter.unusedSectionVars false

variable {ι β β' σ σ' : Type} [Item ι] {ρ : β → β' → Prop} {τ : σ → σ' → Prop}
  {G : Rules ι β} {G' : Rules ι β'} {R : Pat ι β → Pat ι β' → Prop}

namespace Param

/-! ## Matching -/

section
variable {mt : List ι → Pat ι β → Nat → Option (Res Span)}
  {mt' : List ι → Pat ι β' → Nat → Option (Res Span)}

theorem check_eq (h : ∀ d p p' o, R p p' → mt d p o = mt' d p' o) (d : List ι) (o : Nat)
    {c : Cond ι β} {c' : Cond ι β'} (hc : AlikeCond R c c') :
    check mt d o c = check mt' d o c' := by
  funext pr
  cases hc with
  | empty => rfl
  | fn f => rfl
  | @regex p p' hp =>
    unfold check
    simp only
    cases origAt d (o + pr.1) with
    | err e => rfl
    | panic => rfl
    | ok d' => simp only [h _ _ _ _ hp]

theorem testItem_eq (h : ∀ d p p' o, R p p' → mt d p o = mt' d p' o) (d : List ι) (o : Nat)
    (u : Neu ι) {c : Cond ι β} {c' : Cond ι β'} (hc : AlikeCond R c c') :
    testItem mt d o u c = testItem mt' d o u c' := by
  funext pr
  simp only [testItem, check_eq h _ _ hc]

end

section
variable {mt : Pat ι β → Nat → Option (Res Span)} {mt' : Pat ι β' → Nat → Option (Res Span)}

theorem choiceLoop_eq (h : ∀ p p' o, R p p' → mt p o = mt' p' o) (e : Error) (beg : Nat)
    {l : List (Pat ι β × Option (Val β))} {l' : List (Pat ι β' × Option (Val β'))}
    (hl : AlikeItems ρ R l l') (o : Nat) : choiceLoop mt e beg l o = choiceLoop mt' e beg l' o := by
  induction hl generalizing o with
  | nil => rfl
  | cons hp _ _ ih => simp only [choiceLoop, h _ _ _ hp, ih]

theorem ltmLoop_eq (h : ∀ p p' o, R p p' → mt p o = mt' p' o) (e : Error) (beg : Nat)
    {l : List (Pat ι β × Option (Val β))} {l' : List (Pat ι β' × Option (Val β'))}
    (hl : AlikeItems ρ R l l') (best : Option Span) (o : Nat) :
    ltmLoop mt e beg l best o = ltmLoop mt' e beg l' best o := by
  induction hl generalizing best o with
  | nil => cases best <;> rfl
  | cons hp _ _ ih => simp only [ltmLoop, h _ _ _ hp, ih]

theorem repLoop_eq (h : ∀ p p' o, R p p' → mt p o = mt' p' o) {p : Pat ι β} {p' : Pat ι β'}
    (hp : R p p') {more : Nat → Bool} {fin : Nat → Span → Nat → Option (Res Span)} (n cnt : Nat)
    (t : Span) (o : Nat) : repLoop mt p more fin n cnt t o = repLoop mt' p' more fin n cnt t o := by
  induction n generalizing cnt t o with
  | zero => rfl
  | succ n ih => simp only [repLoop, h _ _ _ hp, ih]

theorem sepLoop_eq (h : ∀ p p' o, R p p' → mt p o = mt' p' o) {p s : Pat ι β} {p' s' : Pat ι β'}
    (hp : R p p') (hs : R s s') {skip : Bool} {more : Nat → Bool}
    {fin : Nat → Span → Nat → Option (Res Span)} (n cnt : Nat) (t : Span) (o : Nat) :
    sepLoop mt p s skip more fin n cnt t o = sepLoop mt' p' s' skip more fin n cnt t o := by
  induction n generalizing cnt t o with
  | zero => rfl
  | succ n ih => simp only [sepLoop, h _ _ _ hp, h _ _ _ hs, ih]

end

theorem step_eq {mt : List ι → Pat ι β → Nat → Option (Res Span)}
    {mt' : List ι → Pat ι β' → Nat → Option (Res Span)}
    {pr : Pat ι β → Nat → Option (Res Span)} {pr' : Pat ι β' → Nat → Option (Res Span)}
    (hm : ∀ d p p' o, R p p' → mt d p o = mt' d p' o)
    (hp : ∀ p p' o, R p p' → pr p o = pr' p' o) (n : Nat) (d : List ι) {p : Pat ι β}
    {p' : Pat ι β'} (h : Alike ρ G G' R p p') (o : Nat) :
    step G n mt pr d p o = step G' n mt' pr' d p' o := by
  have hmd := fun p p' o => hm d p p' o
  cases h with
  | empty | fail | start | anchorEnd | consume | consumeAll | lit | native => rfl
  | once u hc => simp only [step, onceParse, testItem_eq hm _ _ _ hc]
  | optU u hc => simp only [step, optUParse, testItem_eq hm _ _ _ hc]
  | many0 u hc => simp only [step, many0Parse, testItem_eq hm _ _ _ hc]
  | many1 u hc => simp only [step, many1Parse, testItem_eq hm _ _ _ hc]
  | between m k u hc => simp only [step, betweenParse, testItem_eq hm _ _ _ hc]
  | times rg u hc => simp only [step, timesParse, testItem_eq hm _ _ _ hc]
  | thenU u v hc => simp only [step, thenUParse, testItem_eq hm _ _ _ hc]
  | assert v h => simp only [step, hm _ _ _ _ h]
  | thn h1 h2 | pre h1 h2 | suf h1 h2 | or h1 h2 | longest h1 h2 =>
    simp only [step, hm _ _ _ _ h1, hm _ _ _ _ h2]
  | ifThen h1 h2 h3 | enclose h1 h2 h3 | sepOnce h1 h2 h3 =>
    simp only [step, hm _ _ _ _ h1, hm _ _ _ _ h2, hm _ _ _ _ h3]
  | opt h | map h _ | pat h => simp only [step, hm _ _ _ _ h]
  | choice e hl => simp only [step]; exact choiceLoop_eq hmd _ _ hl _
  | ltm e hl => simp only [step]; exact ltmLoop_eq hmd _ _ hl _ _
  | rep rg h => simp only [step]; exact repLoop_eq hmd h _ _ _ _
  | rep2 m k h => simp only [step]; exact repLoop_eq hmd h _ _ _ _
  | collect m h => simp only [step]; exact repLoop_eq hmd h _ _ _ _
  | sep k m h h' => simp only [step]; exact sepLoop_eq hmd h h' _ _ _ _
  | sep2 k m l h h' => simp only [step]; exact sepLoop_eq hmd h h' _ _ _ _
  | sepCollect k m h h' => simp only [step]; exact sepLoop_eq hmd h h' _ _ _ _
  | branch t h1 h2 =>
    simp only [step]
    congr 1
    funext b
    cases b
    · simp [hm _ _ _ _ h2]
    · simp [hm _ _ _ _ h1]
  | @build _ _ f f' h hf =>
    simp only [step, hm _ _ _ _ h]
    congr 1
    funext s o1
    have := hf d o1 s
    generalize f d o1 s = x at this
    generalize f' d o1 s = y at this
    cases this with
    | ok o2 hb => simp only [caseR, hm _ _ _ _ hb]
    | err => rfl
    | panic => rfl
  | dthen => rfl
  | unset h1 h2 => simp only [step, h1, h2]
  | cell h1 h2 h3 => simp only [step, h1, h2, hp _ _ _ h3]

theorem matWith_eq {pr : Option (Pat ι β) → List ι → Pat ι β → Nat → Option (Res Span)}
    {pr' : Option (Pat ι β') → List ι → Pat ι β' → Nat → Option (Res Span)}
    (h : ∀ pol pol', ROpt R pol pol' → ∀ d p p' o, R p p' → pr pol d p o = pr' pol' d p' o)
    {pol : Option (Pat ι β)} {pol' : Option (Pat ι β')} (hpol : ROpt R pol pol') (d : List ι)
    {p : Pat ι β} {p' : Pat ι β'} (hp : R p p') (o : Nat) :
    matWith pr pol d p o = matWith pr' pol' d p' o := by
  cases hpol with
  | none => exact h _ _ .none _ _ _ _ hp
  | some hq =>
    simp only [matWith, h _ _ .none _ _ _ _ hq, h _ _ (.some hq) _ _ _ _ hp]

theorem parse_eq (hR : Parallel ρ G G' R) (n : Nat) {pol : Option (Pat ι β)}
    {pol' : Option (Pat ι β')} (hpol : ROpt R pol pol') (d : List ι) (p : Pat ι β) (p' : Pat ι β')
    (o : Nat) (hp : R p p') : parse G n pol d p o = parse G' n pol' d p' o := by
  induction n generalizing pol pol' d p p' o with
  | zero => rfl
  | succ n ih =>
    simp only [parse]
    exact step_eq (R := R) (fun d p p' o h => matWith_eq (R := R) (fun _ _ hpol d p p' o h => ih hpol d p p' o h)
      hpol d h o) (fun p p' o h => ih hpol d p p' o h) n d (hR _ _ hp) o

theorem tryMat_eq (hR : Parallel ρ G G' R) (n : Nat) {pol : Option (Pat ι β)}
    {pol' : Option (Pat ι β')} (hpol : ROpt R pol pol') (d : List ι) (p : Pat ι β) (p' : Pat ι β')
    (o : Nat) (hp : R p p') : tryMat G n pol d p o = tryMat G' n pol' d p' o :=
  matWith_eq (fun _ _ hpol d p p' o h => parse_eq hR n hpol d p p' o h) hpol d hp o

/-! ## Building -/

/-- Outcomes with fuel: both out of fuel, or both finished with corresponding results. -/
abbrev RO (τ : σ → σ' → Prop) (ρ : β → β' → Prop) :=
  ROpt (RRes τ (RVal ρ))

theorem ok' {v : Val β} {v' : Val β'} {st : σ} {st' : σ'} (o : Nat) (hv : RVal ρ v v')
    (hs : τ st st') : RO τ ρ (some (.ok v st o)) (some (.ok v' st' o)) := .some (.ok _ hv hs)

theorem err' {st : σ} {st' : σ'} (e : Error) (o : Nat)
    (hs : τ st st') : RO τ ρ (some (.err e st o)) (some (.err e st' o)) := .some (.err _ _ hs)

theorem panic' : RO τ ρ (some .panic) (some .panic) := .some .panic

theorem caseC_ro {x : Option (CRes σ (Val β))} {y : Option (CRes σ' (Val β'))} (h : RO τ ρ x y)
    {k : Val β → σ → Nat → Option (CRes σ (Val β))} {k' : Val β' → σ' → Nat → Option (CRes σ' (Val β'))}
    {e : Error → σ → Nat → Option (CRes σ (Val β))} {e' : Error → σ' → Nat → Option (CRes σ' (Val β'))}
    (hk : ∀ v v' st st' o, RVal ρ v v' → τ st st' → RO τ ρ (k v st o) (k' v' st' o))
    (he : ∀ er st st' o, τ st st' → RO τ ρ (e er st o) (e' er st' o)) :
    RO τ ρ (caseC x k e) (caseC y k' e') := by
  cases h with
  | none => exact .none
  | some h =>
    cases h with
    | ok o hv hs => exact hk _ _ _ _ _ hv hs
    | err er o hs => exact he _ _ _ _ hs
    | panic => exact panic'

theorem caseM_ro {α : Type} {x : Option (Res α)}
    {k : α → Nat → Option (CRes σ (Val β))} {k' : α → Nat → Option (CRes σ' (Val β'))}
    {e : Error → Nat → Option (CRes σ (Val β))} {e' : Error → Nat → Option (CRes σ' (Val β'))}
    (hk : ∀ v o, RO τ ρ (k v o) (k' v o)) (he : ∀ er o, RO τ ρ (e er o) (e' er o)) :
    RO τ ρ (caseM x k e) (caseM x k' e') := by
  rcases x with _ | (_ | _ | _)
  · exact .none
  · exact hk _ _
  · exact he _ _
  · exact panic'

theorem ite_ro {c : Prop} [Decidable c] {x y : Option (CRes σ (Val β))}
    {x' y' : Option (CRes σ' (Val β'))} (h : RO τ ρ x x') (h' : RO τ ρ y y') :
    RO τ ρ (if c then x else y) (if c then x' else y') := by
  by_cases hc : c
  · simpa [hc] using h
  · simpa [hc] using h'

theorem tagged_rel {k : Option (Val β)} {k' : Option (Val β')} (hk : ROpt (RVal ρ) k k')
    {v : Val β} {v' : Val β'} (hv : RVal ρ v v') : RVal ρ (tagged k v) (tagged k' v') := by
  cases hk with
  | none => exact hv
  | some h => exact .pair hv h

/-- Lists of corresponding values. -/
inductive RL (ρ : β → β' → Prop) : List (Val β) → List (Val β') → Prop where
  | nil : RL ρ [] []
  | cons {v v' l l'} : RVal ρ v v' → RL ρ l l' → RL ρ (v :: l) (v' :: l')

theorem RL.append {l m : List (Val β)} {l' m' : List (Val β')} (h : RL ρ l l') (h' : RL ρ m m') :
    RL ρ (l ++ m) (l' ++ m') := by
  induction h with
  | nil => exact h'
  | cons hv _ ih => exact .cons hv ih

theorem RL.snoc {l : List (Val β)} {l' : List (Val β')} (h : RL ρ l l') {v : Val β} {v' : Val β'}
    (hv : RVal ρ v v') : RL ρ (l ++ [v]) (l' ++ [v']) := h.append (.cons hv .nil)

theorem RL.length {l : List (Val β)} {l' : List (Val β')} (h : RL ρ l l') :
    l.length = l'.length := by
  induction h with
  | nil => rfl
  | cons _ _ ih => simp [ih]

theorem RL.list {l : List (Val β)} {l' : List (Val β')} (h : RL ρ l l') :
    RVal ρ (Val.list l) (Val.list l') := by
  induction h with
  | nil => exact .nil
  | cons hv _ ih => exact .cons hv ih

theorem RL.somes {l : List (Val β)} {l' : List (Val β')} (h : RL ρ l l') :
    RL ρ (l.map .some) (l'.map .some) := by
  induction h with
  | nil => exact .nil
  | cons hv _ ih => exact .cons (.some hv) ih

theorem RL.nones (n : Nat) : RL ρ (List.replicate n .none) (List.replicate n .none) := by
  induction n with
  | zero => exact .nil
  | succ n ih => exact .cons .none ih

theorem RL.padded {l : List (Val β)} {l' : List (Val β')} (h : RL ρ l l') (n : Nat) :
    RVal ρ (padded n l) (padded n l') := by
  unfold Neure.padded
  rw [h.length]
  exact (h.somes.append (.nones _)).list

section
variable {cn : Pat ι β → σ → Nat → Option (CRes σ (Val β))}
  {cn' : Pat ι β' → σ' → Nat → Option (CRes σ' (Val β'))}

theorem conChoice_ro (h : ∀ p p' st st' o, R p p' → τ st st' → RO τ ρ (cn p st o) (cn' p' st' o))
    (e : Error) (beg : Nat) {l : List (Pat ι β × Option (Val β))}
    {l' : List (Pat ι β' × Option (Val β'))} (hl : AlikeItems ρ R l l') {st : σ} {st' : σ'}
    (hs : τ st st') (o : Nat) : RO τ ρ (conChoice cn e beg l st o) (conChoice cn' e beg l' st' o) := by
  induction hl generalizing st st' o with
  | nil => exact err' _ _ hs
  | cons hp hv _ ih =>
    simp only [conChoice]
    exact caseC_ro (h _ _ _ _ _ hp hs) (fun _ _ _ _ _ hw hs => ok' _ (tagged_rel hv hw) hs)
      (fun _ _ _ _ hs => ih hs _)

theorem conLtm_ro (h : ∀ p p' st st' o, R p p' → τ st st' → RO τ ρ (cn p st o) (cn' p' st' o))
    (e : Error) (beg : Nat) {l : List (Pat ι β × Option (Val β))}
    {l' : List (Pat ι β' × Option (Val β'))} (hl : AlikeItems ρ R l l') {best : Option (Val β)}
    {best' : Option (Val β')} (hb : ROpt (RVal ρ) best best') (stop : Nat) {st : σ} {st' : σ'}
    (hs : τ st st') (o : Nat) :
    RO τ ρ (conLtm cn e beg l best stop st o) (conLtm cn' e beg l' best' stop st' o) := by
  induction hl generalizing best best' stop st st' o with
  | nil =>
    cases hb with
    | none => exact err' _ _ hs
    | some hv => exact ok' _ hv hs
  | cons hp hv _ ih =>
    simp only [conLtm]
    exact caseC_ro (h _ _ _ _ _ hp hs) (fun _ _ _ _ _ hw hs =>
      ite_ro (ih (.some (tagged_rel hv hw)) _ hs _) (ih hb _ hs _)) (fun _ _ _ _ hs => ih hb _ hs _)

/-- Ways to finish that correspond. -/
abbrev RFin (τ : σ → σ' → Prop) (ρ : β → β' → Prop)
    (fin : Nat → List (Val β) → σ → Nat → Option (CRes σ (Val β)))
    (fin' : Nat → List (Val β') → σ' → Nat → Option (CRes σ' (Val β'))) : Prop :=
  ∀ cnt l l' st st' o, RL ρ l l' → τ st st' → RO τ ρ (fin cnt l st o) (fin' cnt l' st' o)

theorem conRep_ro (h : ∀ p p' st st' o, R p p' → τ st st' → RO τ ρ (cn p st o) (cn' p' st' o))
    {p : Pat ι β} {p' : Pat ι β'} (hp : R p p') {more room : Nat → Bool}
    {fin : Nat → List (Val β) → σ → Nat → Option (CRes σ (Val β))}
    {fin' : Nat → List (Val β') → σ' → Nat → Option (CRes σ' (Val β'))} (hf : RFin τ ρ fin fin')
    (n cnt : Nat) {l : List (Val β)} {l' : List (Val β')} (hl : RL ρ l l') {st : σ} {st' : σ'}
    (hs : τ st st') (o : Nat) :
    RO τ ρ (conRep cn p more room fin n cnt l st o) (conRep cn' p' more room fin' n cnt l' st' o) := by
  induction n generalizing cnt l l' st st' o with
  | zero => exact .none
  | succ n ih =>
    simp only [conRep]
    exact ite_ro (caseC_ro (h _ _ _ _ _ hp hs) (fun _ _ _ _ _ hv hs =>
      ite_ro (ih _ (hl.snoc hv) hs _) panic') (fun _ _ _ _ hs => hf _ _ _ _ _ _ hl hs))
      (hf _ _ _ _ _ _ hl hs)

variable {ms : Nat → Option (Res Span)}

theorem conSep_ro (h : ∀ p p' st st' o, R p p' → τ st st' → RO τ ρ (cn p st o) (cn' p' st' o))
    {p : Pat ι β} {p' : Pat ι β'} (hp : R p p') {skip : Bool} {more room : Nat → Bool}
    {fin : Nat → List (Val β) → σ → Nat → Option (CRes σ (Val β))}
    {fin' : Nat → List (Val β') → σ' → Nat → Option (CRes σ' (Val β'))} (hf : RFin τ ρ fin fin')
    (n cnt : Nat) {l : List (Val β)} {l' : List (Val β')} (hl : RL ρ l l') {st : σ} {st' : σ'}
    (hs : τ st st') (o : Nat) :
    RO τ ρ (conSep cn ms p skip more room fin n cnt l st o)
      (conSep cn' ms p' skip more room fin' n cnt l' st' o) := by
  induction n generalizing cnt l l' st st' o with
  | zero => exact .none
  | succ n ih =>
    simp only [conSep]
    exact ite_ro (caseC_ro (h _ _ _ _ _ hp hs) (fun _ _ _ _ _ hv hs => caseM_ro
      (fun _ _ => ite_ro (ih _ (hl.snoc hv) hs _) panic')
      (fun _ _ => ite_ro (ite_ro (hf _ _ _ _ _ _ (hl.snoc hv) hs) panic')
        (hf _ _ _ _ _ _ hl hs))) (fun _ _ _ _ hs => hf _ _ _ _ _ _ hl hs))
      (hf _ _ _ _ _ _ hl hs)

theorem conSepCollect_ro
    (h : ∀ p p' st st' o, R p p' → τ st st' → RO τ ρ (cn p st o) (cn' p' st' o))
    {p : Pat ι β} {p' : Pat ι β'} (hp : R p p') {skip : Bool}
    {fin : Nat → List (Val β) → σ → Nat → Option (CRes σ (Val β))}
    {fin' : Nat → List (Val β') → σ' → Nat → Option (CRes σ' (Val β'))} (hf : RFin τ ρ fin fin')
    (n : Nat) (ended : Bool) (cnt : Nat) {l : List (Val β)} {l' : List (Val β')} (hl : RL ρ l l')
    {st : σ} {st' : σ'} (hs : τ st st') (o : Nat) :
    RO τ ρ (conSepCollect cn ms p skip fin n ended cnt l st o)
      (conSepCollect cn' ms p' skip fin' n ended cnt l' st' o) := by
  induction n generalizing ended cnt l l' st st' o with
  | zero => exact .none
  | succ n ih =>
    simp only [conSepCollect]
    exact caseC_ro (h _ _ _ _ _ hp hs) (fun _ _ _ _ _ hv hs => caseM_ro
      (fun _ _ => ite_ro (hf _ _ _ _ _ _ hl hs) (ih _ _ (hl.snoc hv) hs _))
      (fun _ _ => ite_ro (hf _ _ _ _ _ _ hl hs) (ite_ro (ih _ _ (hl.snoc hv) hs _)
        (hf _ _ _ _ _ _ hl hs)))) (fun _ _ _ _ hs => hf _ _ _ _ _ _ hl hs)

end

theorem finish_list (ok : Nat → Bool) (e : Error) (beg : Nat) :
    RFin τ ρ (conFinish ok e beg Val.list) (conFinish ok e beg Val.list) := by
  intro cnt l l' st st' o hl hs
  unfold conFinish
  exact ite_ro (ok' _ hl.list hs) (err' _ _ hs)

theorem finish_padded (ok : Nat → Bool) (e : Error) (beg n : Nat) :
    RFin τ ρ (conFinish ok e beg (padded n)) (conFinish ok e beg (padded n)) := by
  intro cnt l l' st st' o hl hs
  unfold conFinish
  exact ite_ro (ok' _ (hl.padded n) hs) (err' _ _ hs)

theorem invokeK_ro {H : Handler ι β σ} {H' : Handler ι β' σ'} {d : List ι} (hH : RHandler τ ρ d H H')
    {st : σ} {st' : σ'} (hs : τ st st') (r : Option (Res Span)) :
    RO τ ρ (invokeK H d st r) (invokeK H' d st' r) := by
  refine caseM_ro (fun s o => ?_) (fun e o => err' _ _ hs)
  obtain ⟨h1, h2⟩ := hH o s st st' hs
  revert h1 h2
  rcases H d o s st with ⟨x, st1⟩
  rcases H' d o s st' with ⟨y, st2⟩
  intro h1 h2
  cases h1 with
  | ok h => exact ok' _ (.base h) h2
  | err e => exact err' _ _ h2
  | panic => exact panic'

theorem conStep_ro {H : Handler ι β σ} {H' : Handler ι β' σ'} {d : List ι} (hH : RHandler τ ρ d H H')
    {mt : Pat ι β → Nat → Option (Res Span)} {mt' : Pat ι β' → Nat → Option (Res Span)}
    {leaf : Option (Res Span)}
    {cn : Pat ι β → σ → Nat → Option (CRes σ (Val β))}
    {cn' : Pat ι β' → σ' → Nat → Option (CRes σ' (Val β'))}
    (hm : ∀ p p' o, R p p' → mt p o = mt' p' o)
    (hc : ∀ p p' st st' o, R p p' → τ st st' → RO τ ρ (cn p st o) (cn' p' st' o)) (n : Nat)
    {p : Pat ι β} {p' : Pat ι β'} (h : Alike ρ G G' R p p') {st : σ} {st' : σ'}
    (hs : τ st st') (o : Nat) :
    RO τ ρ (conStep G H n mt leaf cn d p st o) (conStep G' H' n mt' leaf cn' d p' st' o) := by
  have er : ∀ {o : Nat} (e : Error) (st : σ) (st' : σ') (_ : Nat), τ st st' →
      RO τ ρ (some (.err e st o)) (some (.err e st' o)) := fun e _ _ _ hs => err' e _ hs
  cases h with
  | empty | fail | start | anchorEnd | consume | consumeAll | lit | native | once | optU | many0
  | many1 | between | times | thenU | assert | build => exact invokeK_ro hH hs _
  | pat h => simp only [conStep, hm _ _ _ h]; exact invokeK_ro hH hs _
  | thn h1 h2 =>
    exact caseC_ro (hc _ _ _ _ _ h1 hs) (fun _ _ _ _ _ hv hs => caseC_ro (hc _ _ _ _ _ h2 hs)
      (fun _ _ _ _ _ hw hs => ok' _ (.pair hv hw) hs) er) er
  | ifThen h1 h2 h3 =>
    simp only [conStep, hm _ _ _ h2]
    exact caseC_ro (hc _ _ _ _ _ h1 hs) (fun _ _ _ _ _ hv hs => caseM_ro
      (fun _ _ => caseC_ro (hc _ _ _ _ _ h3 hs)
        (fun _ _ _ _ _ hw hs => ok' _ (.pair hv (.some hw)) hs) er)
      (fun _ _ => ok' _ (.pair hv .none) hs)) er
  | pre h1 h2 =>
    simp only [conStep, hm _ _ _ h1]
    exact caseM_ro (fun _ _ => caseC_ro (hc _ _ _ _ _ h2 hs)
      (fun _ _ _ _ _ hv hs => ok' _ hv hs) er) (fun _ _ => err' _ _ hs)
  | suf h1 h2 =>
    simp only [conStep, hm _ _ _ h2]
    exact caseC_ro (hc _ _ _ _ _ h1 hs) (fun _ _ _ _ _ hv hs => caseM_ro
      (fun _ _ => ok' _ hv hs) (fun _ _ => err' _ _ hs)) er
  | enclose h1 h2 h3 =>
    simp only [conStep, hm _ _ _ h1, hm _ _ _ h3]
    exact caseM_ro (fun _ _ => caseC_ro (hc _ _ _ _ _ h2 hs) (fun _ _ _ _ _ hv hs => caseM_ro
      (fun _ _ => ok' _ hv hs) (fun _ _ => err' _ _ hs)) er) (fun _ _ => err' _ _ hs)
  | sepOnce h1 h2 h3 =>
    simp only [conStep, hm _ _ _ h2]
    exact caseC_ro (hc _ _ _ _ _ h1 hs) (fun _ _ _ _ _ hv hs => caseM_ro
      (fun _ _ => caseC_ro (hc _ _ _ _ _ h3 hs)
        (fun _ _ _ _ _ hw hs => ok' _ (.pair hv hw) hs) er)
      (fun _ _ => err' _ _ hs)) er
  | or h1 h2 =>
    exact caseC_ro (hc _ _ _ _ _ h1 hs) (fun _ _ _ _ _ hv hs => ok' _ hv hs)
      (fun _ _ _ _ hs => caseC_ro (hc _ _ _ _ _ h2 hs) (fun _ _ _ _ _ hv hs => ok' _ hv hs) er)
  | longest h1 h2 =>
    exact caseC_ro (hc _ _ _ _ _ h1 hs)
      (fun _ _ _ _ _ hv hs => caseC_ro (hc _ _ _ _ _ h2 hs)
        (fun _ _ _ _ _ hw hs => ite_ro (ok' _ hv hs) (ok' _ hw hs))
        (fun _ _ _ _ hs => ok' _ hv hs))
      (fun _ _ _ _ hs => caseC_ro (hc _ _ _ _ _ h2 hs) (fun _ _ _ _ _ hv hs => ok' _ hv hs) er)
  | opt h =>
    exact caseC_ro (hc _ _ _ _ _ h hs) (fun _ _ _ _ _ hv hs => ok' _ (.some hv) hs)
      (fun _ _ _ _ hs => ok' _ .none hs)
  | choice e hi => exact conChoice_ro hc _ _ hi hs _
  | ltm e hi => exact conLtm_ro hc _ _ hi .none _ hs _
  | rep rg h => exact conRep_ro hc h (finish_list _ _ _) _ _ .nil hs _
  | rep2 m k h => exact conRep_ro hc h (finish_padded _ _ _ _) _ _ .nil hs _
  | collect m h => exact conRep_ro hc h (finish_list _ _ _) _ _ .nil hs _
  | sep k m h h' =>
    simp only [conStep, (funext fun o => hm _ _ o h' : mt _ = mt' _)]
    exact conSep_ro hc h (finish_list _ _ _) _ _ .nil hs _
  | sep2 k m l h h' =>
    simp only [conStep, (funext fun o => hm _ _ o h' : mt _ = mt' _)]
    exact conSep_ro hc h (finish_padded _ _ _ _) _ _ .nil hs _
  | sepCollect k m h h' =>
    simp only [conStep, (funext fun o => hm _ _ o h' : mt _ = mt' _)]
    exact conSepCollect_ro hc h (finish_list _ _ _) _ _ _ .nil hs _
  | branch t h1 h2 =>
    simp only [conStep]
    rcases t d o with (_ | _) | _ | _
    · exact caseC_ro (hc _ _ _ _ _ h2 hs) (fun _ _ _ _ _ hv hs => ok' _ hv hs) er
    · exact caseC_ro (hc _ _ _ _ _ h1 hs) (fun _ _ _ _ _ hv hs => ok' _ hv hs) er
    · exact err' _ _ hs
    · exact panic'
  | @map _ _ f f' h hf =>
    refine caseC_ro (hc _ _ _ _ _ h hs) (fun v v' _ _ o1 hv hs => ?_) (fun _ _ _ _ hs => err' _ _ hs)
    have := hf v v' hv
    revert this
    generalize f v = x
    generalize f' v' = y
    intro this
    cases this with
    | ok hw => exact ok' _ hw hs
    | err => exact err' _ _ hs
    | panic => exact panic'
  | @dthen _ _ f f' h hf =>
    refine caseC_ro (hc _ _ _ _ _ h hs) (fun v v' st1 st1' o1 hv hs => ?_) er
    have := hf d o1 v v' hv
    generalize f d o1 v = x at this
    generalize f' d o1 v' = y at this
    cases this with
    | ok o2 hb =>
      exact caseC_ro (hc _ _ _ _ _ hb hs) (fun _ _ _ _ _ hw hs => ok' _ (.pair hv hw) hs) er
    | err => exact err' _ _ hs
    | panic => exact panic'
  | unset h1 h2 => simp only [conStep, h1, h2]; exact err' _ _ hs
  | cell h1 h2 h3 => simp only [conStep, h1, h2]; exact hc _ _ _ _ _ h3 hs

theorem con_ro {H : Handler ι β σ} {H' : Handler ι β' σ'} {d : List ι} (hH : RHandler τ ρ d H H')
    (hR : Parallel ρ G G' R) (n : Nat) {pol : Option (Pat ι β)} {pol' : Option (Pat ι β')}
    (hpol : ROpt R pol pol') (p : Pat ι β) (p' : Pat ι β') {st : σ} {st' : σ'} (o : Nat)
    (hp : R p p') (hs : τ st st') :
    RO τ ρ (con G H n pol d p st o) (con G' H' n pol' d p' st' o) := by
  induction n generalizing p p' st st' o with
  | zero => exact .none
  | succ n ih =>
    simp only [con, tryMat_eq hR (n + 1) hpol d p p' o hp]
    exact conStep_ro hH (fun p p' o h => tryMat_eq hR n hpol d p p' o h)
      (fun p p' st st' o h hs => ih p p' o h hs) n (hR _ _ hp) hs o

theorem alikeItems_mono {S T : Pat ι β → Pat ι β' → Prop} (h : ∀ p p', S p p' → T p p')
    {l : List (Pat ι β × Option (Val β))} {l' : List (Pat ι β' × Option (Val β'))}
    (hl : AlikeItems ρ S l l') : AlikeItems ρ T l l' := by
  induction hl with
  | nil => exact .nil
  | cons hp hv _ ih => exact .cons (h _ _ hp) hv ih

/-- What is grown from related patterns is related throughout. -/
theorem grow_parallel {S : Pat ι β → Pat ι β' → Prop}
    (h : ∀ p p', S p p' → Alike ρ G G' (Grow ρ G G' S) p p') : Parallel ρ G G' (Grow ρ G G' S) := by
  intro p p' hp
  cases hp with
  | base hS => exact h _ _ hS
  | step hA => exact hA

theorem alike_self {R : Pat ι β → Pat ι β → Prop} {ρ : β → β → Prop} {G : Rules ι β} {p : Pat ι β}
    (hb : Bare p) (hr : ∀ q, Child G q p → R q q) : Alike ρ G G R p p := by
  have hcond : ∀ c : Cond ι β, (∀ q, c.Has q → R q q) → AlikeCond R c c := by
    intro c h
    cases c with
    | empty => exact .empty
    | fn f => exact .fn f
    | regex q => exact .regex (h q rfl)
  have hitems : ∀ l : List (Pat ι β × Option (Val β)), (∀ it ∈ l, R it.1 it.1) →
      (∀ it ∈ l, it.2 = none) → AlikeItems ρ R l l := by
    intro l
    induction l with
    | nil => intro _ _; exact .nil
    | cons it l ih =>
      intro h h'
      refine .cons (h it (by simp)) ?_ (ih (fun x hx => h x (by simp [hx]))
        (fun x hx => h' x (by simp [hx])))
      rw [h' it (by simp)]; exact .none
  cases p with
  | once _ c | many1 _ c | optU _ c | many0 _ c | between _ _ _ c | times _ _ c | thenU _ _ c =>
    constructor; exact hcond c hr
  | choice e l => exact .choice e (hitems l (fun it hit => hr _ ⟨it, hit, rfl⟩) hb)
  | ltm e l => exact .ltm e (hitems l (fun it hit => hr _ ⟨it, hit, rfl⟩) hb)
  | build q f =>
    refine .build (hr _ (.inl rfl)) fun d o s => ?_
    cases hx : f d o s with
    | ok q' o' => exact .ok o' (hr _ (.inr ⟨d, o, s, o', hx⟩))
    | err e o' => exact .err e o'
    | panic => exact .panic
  | map _ _ | dthen _ _ => exact absurd hb id
  | cell i =>
    cases hx : G i with
    | none => exact .unset hx hx
    | some q => exact .cell hx hx (hr _ hx)
  | assert q _ | opt q | rep q _ | rep2 q _ _ | collect q _ | pat q =>
    constructor; exact hr _ rfl
  | thn a b | pre a b | suf a b | or a b | longest a b | branch _ a b =>
    constructor
    · exact hr _ (.inl rfl)
    · exact hr _ (.inr rfl)
  | sep a b _ _ | sep2 a b _ _ _ | sepCollect a b _ _ =>
    constructor
    · exact hr _ (.inl rfl)
    · exact hr _ (.inr rfl)
  | ifThen a b c | enclose a b c | sepOnce a b c =>
    constructor
    · exact hr _ (.inl rfl)
    · exact hr _ (.inr (.inl rfl))
    · exact hr _ (.inr (.inr rfl))
  | _ => constructor

end Param

end Neure
