import Verif.LocalityCtor
/-!
# Lemmas for C95: a grammar sees only the differences it asks for

`f` sends every item to a representative (a letter to its lower case, a digit to `0`, …) of the same
length.  If no unit, literal or closure tells an item from its representative, matching the text and matching
the text of the representatives is the same.
-/

namespace Neure

set_option linter.unusedSectionVars false
set_option linter.unusedSimpArgs false

variable {ι β σ : Type} [Item ι] {G : Rules ι β} {f : ι → ι}

/-! ## Specification -/

/-- A condition that does not tell an item from its representative. -/
def Cond.Coarse (f : ι → ι) : Cond ι β → Prop
  | .fn g => ∀ d o i x, g (d.map f) o (i, f x) = g d o (i, x)
  | _ => True

/-- A unit that does not tell an item from its representative. -/
def Neu.Coarse (f : ι → ι) (u : Neu ι) : Prop := ∀ x, u.isMatch (f x) = u.isMatch x

/-- `p` itself (not its parts) does not tell an item from its representative. -/
def Coarse (f : ι → ι) : Pat ι β → Prop
  | .lit l => ∀ c ∈ l, ∀ x, f x = c ↔ x = c
  | .native g => ∀ d o, g (d.map f) o = g d o
  | .once u c | .many1 u c | .optU u c | .many0 u c | .between _ _ u c | .times _ u c => u.Coarse f ∧ c.Coarse f
  | .thenU u v c => u.Coarse f ∧ v.Coarse f ∧ c.Coarse f
  | .branch t _ _ => ∀ d o, t (d.map f) o = t d o
  | .build _ g => ∀ d o s, g (d.map f) o s = g d o s
  | .dthen _ g => ∀ d o v, g (d.map f) o v = g d o v
  | _ => True

/-! ## Data -/

section Data

variable (hf : ∀ x, Item.size (f x) = Item.size x)
include hf

theorem blen_image (d : List ι) : blen (d.map f) = blen d := by
  induction d with
  | nil => rfl
  | cons x d ih => simp [blen, hf, ih]

theorem dropB_image (d : List ι) (o : Nat) : dropB (d.map f) o = (dropB d o).map (List.map f) := by
  induction d generalizing o with
  | nil => cases o <;> rfl
  | cons x d ih =>
    cases o with
    | zero => rfl
    | succ o =>
      simp only [List.map_cons, dropB, hf]
      split
      · exact ih _
      · rfl

theorem takeB_image (d : List ι) (n : Nat) : takeB (d.map f) n = (takeB d n).map (List.map f) := by
  induction d generalizing n with
  | nil => cases n <;> rfl
  | cons x d ih =>
    cases n with
    | zero => rfl
    | succ n =>
      simp only [List.map_cons, takeB, hf]
      split
      · rw [ih]; cases takeB d (n + 1 - Item.size x) <;> rfl
      · rfl

theorem origAt_image (d : List ι) (o : Nat) : origAt (d.map f) o = match origAt d o with
    | .ok l => .ok (l.map f)
    | .err e => .err e
    | .panic => .panic := by
  simp only [origAt, blen_image hf, dropB_image hf]
  split
  · rfl
  · cases dropB d o <;> rfl

theorem origSub_image (d : List ι) (o n : Nat) : origSub (d.map f) o n = match origSub d o n with
    | .ok l => .ok (l.map f)
    | .err e => .err e
    | .panic => .panic := by
  simp only [origSub, dropB_image hf]
  cases dropB d o with
  | none => rfl
  | some l =>
    simp only [Option.map_some, takeB_image hf]
    cases takeB l n <;> rfl

/-- A pair of offset and item, the item replaced. -/
def imagePair (f : ι → ι) (pr : Nat × ι) : Nat × ι := (pr.1, f pr.2)

theorem indices_image (i : Nat) (l : List ι) : indices i (l.map f) = (indices i l).map (imagePair f) := by
  induction l generalizing i with
  | nil => rfl
  | cons x l ih => simp [indices, imagePair, hf, ih]

theorem peek_image (d : List ι) (o : Nat) : peek (d.map f) o = match peek d o with
    | .ok l => .ok (l.map (imagePair f))
    | .err e => .err e
    | .panic => .panic := by
  simp only [peek, origAt_image hf]
  cases origAt d o <;> simp [indices_image hf]

end Data

theorem head_image (l : List (Nat × ι)) : ((l.map (imagePair f)).head?.map (·.1)) = l.head?.map (·.1) := by
  cases l <;> rfl

theorem isPrefixOf_image {l : List ι} (h : ∀ c ∈ l, ∀ x, f x = c ↔ x = c) (d : List ι) :
    l.isPrefixOf (d.map f) = l.isPrefixOf d := by
  induction l generalizing d with
  | nil => cases d <;> rfl
  | cons c l ih =>
    cases d with
    | nil => rfl
    | cons x d =>
      have hc := h c (by simp) x
      have : (c == f x) = (c == x) := by
        rw [Bool.eq_iff_iff]; simp only [beq_iff_eq]
        constructor
        · intro e; exact (hc.mp e.symm).symm
        · intro e; exact (hc.mpr e.symm).symm
      simp only [List.map_cons, List.isPrefixOf, this, ih (fun c hc => h c (by simp [hc]))]

/-! ## Units -/

section Leaves

variable {mt' mt : List ι → Pat ι β → Nat → Option (Res Span)} (hf : ∀ x, Item.size (f x) = Item.size x)
  (d : List ι) {u : Neu ι} {c : Cond ι β} (o : Nat)

/-- The scan of the representatives. -/
def imageScan (f : ι → ι) : Option (Out (Scan ι)) → Option (Out (Scan ι))
  | some (.ok s) => some (.ok { s with rest := s.rest.map (imagePair f) })
  | r => r

theorem scan_image {t' t : Nat × ι → Option (Out Bool)} (ht : ∀ pr, t' (imagePair f pr) = t pr) (more : Nat → Bool)
    (cnt : Nat) (b : Option Nat) (it : List (Nat × ι)) :
    scan t' more cnt b (it.map (imagePair f)) = imageScan f (scan t more cnt b it) := by
  induction it generalizing cnt b with
  | nil => rfl
  | cons pr it ih =>
    simp only [List.map_cons, scan, ht]
    split
    · rcases t pr with _ | (_ | _) | _ | _
      · rfl
      · rfl
      · exact ih _ _
      · rfl
      · rfl
    · rfl

theorem caseO_scan_alike {γ : Type} {r' r : Option (Out (Scan ι))} (hr : r' = imageScan f r)
    {k' k : Scan ι → Option (Res γ)} {e' e : Error → Option (Res γ)}
    (hk : ∀ s : Scan ι, k' { s with rest := s.rest.map (imagePair f) } = k s) (he : ∀ x, e' x = e x) :
    caseO r' k' e' = caseO r k e := by
  subst hr
  rcases r with _ | _ | _ | _
  · rfl
  · exact hk _
  · exact he _
  · rfl

include hf in
theorem caseO_peek {γ : Type} {k' k : List (Nat × ι) → Option (Res γ)} {e : Error → Option (Res γ)}
    (hk : ∀ it, k' (it.map (imagePair f)) = k it) :
    caseO (some (peek (d.map f) o)) k' e = caseO (some (peek d o)) k e := by
  rw [peek_image hf]
  cases peek d o
  · exact hk _
  · rfl
  · rfl

variable (hc : c.Coarse f) (hm : ∀ q, c.Has q → ∀ d o, mt' (d.map f) q o = mt d q o)
include hf hc hm

theorem testItem_image (hu : u.Coarse f) (pr : Nat × ι) :
    testItem mt' (d.map f) o u c (imagePair f pr) = testItem mt d o u c pr := by
  simp only [testItem, imagePair, hu pr.2]
  split
  · cases c with
    | empty => rfl
    | fn g => simp only [check, hc d o pr.1 pr.2]
    | regex p =>
      simp only [check, origAt_image hf]
      cases origAt d (o + pr.1) with
      | ok l => simp only [hm p rfl]
      | err e => rfl
      | panic => rfl
  · rfl

theorem once_image (hu : u.Coarse f) : onceParse mt' (d.map f) u c o = onceParse mt d u c o := by
  simp only [onceParse, remK, blen_image hf]
  refine caseO_peek hf d o fun it => ?_
  cases it with
  | nil => rfl
  | cons pr it => simp only [List.map_cons, testItem_image hf d o hc hm hu, head_image]; rfl

theorem optU_image (hu : u.Coarse f) : optUParse mt' (d.map f) u c o = optUParse mt d u c o := by
  simp only [optUParse, remK, blen_image hf]
  split
  · refine caseO_peek hf d o fun it => ?_
    cases it with
    | nil => rfl
    | cons pr it => simp only [List.map_cons, testItem_image hf d o hc hm hu, head_image]; rfl
  · rfl

theorem many0_image (hu : u.Coarse f) : many0Parse mt' (d.map f) u c o = many0Parse mt d u c o := by
  simp only [many0Parse, remK, blen_image hf]
  split
  · refine caseO_peek hf d o fun it => ?_
    exact caseO_scan_alike (scan_image (testItem_image hf d o hc hm hu) _ _ _ _) (fun _ => rfl) (fun _ => rfl)
  · rfl

theorem many1_image (hu : u.Coarse f) : many1Parse mt' (d.map f) u c o = many1Parse mt d u c o := by
  simp only [many1Parse, remK, blen_image hf]
  refine caseO_peek hf d o fun it => ?_
  split
  · exact caseO_scan_alike (scan_image (testItem_image hf d o hc hm hu) _ _ _ _) (fun _ => rfl) (fun _ => rfl)
  · rfl

theorem between_image (hu : u.Coarse f) (m n : Nat) :
    betweenParse mt' (d.map f) m n u c o = betweenParse mt d m n u c o := by
  simp only [betweenParse, remK, blen_image hf]
  refine caseO_peek hf d o fun it => ?_
  split
  · split
    · exact caseO_scan_alike (scan_image (testItem_image hf d o hc hm hu) _ _ _ _) (fun _ => by simp only [head_image])
        (fun _ => rfl)
    · rfl
  · rfl

theorem times_image (hu : u.Coarse f) (r : CRange) : timesParse mt' (d.map f) r u c o = timesParse mt d r u c o := by
  simp only [timesParse, remK, blen_image hf]
  refine caseO_peek hf d o fun it => ?_
  split
  · split
    · exact caseO_scan_alike (scan_image (testItem_image hf d o hc hm hu) _ _ _ _) (fun _ => by simp only [head_image])
        (fun _ => rfl)
    · rfl
  · rfl

theorem thenU_image {v : Neu ι} (hu : u.Coarse f) (hv : v.Coarse f) :
    thenUParse mt' (d.map f) u v c o = thenUParse mt d u v c o := by
  simp only [thenUParse, remK, blen_image hf]
  refine caseO_peek hf d o fun it => ?_
  split
  · split
    · rcases it with _ | ⟨a, _ | ⟨b, it⟩⟩
      · rfl
      · rfl
      · simp only [List.map_cons, testItem_image hf d o hc hm hu, testItem_image hf d o hc hm hv, head_image]; rfl
    · rfl
  · rfl

end Leaves

/-! ## Patterns -/

theorem caseR_eq {α γ : Type} {r' r : Option (Res α)} {k' k : α → Nat → Option (Res γ)}
    {e' e : Error → Nat → Option (Res γ)} (hr : r' = r) (hk : ∀ a o, k' a o = k a o) (he : ∀ x o, e' x o = e x o) :
    caseR r' k' e' = caseR r k e := by
  subst hr
  rcases r' with _ | _ | _ | _
  · rfl
  · exact hk _ _
  · exact he _ _
  · rfl

theorem addK_eq {γ : Type} (s t : Span) {k' k : Span → Option (Res γ)} (h : ∀ s, k' s = k s) :
    addK s t k' = addK s t k := by
  unfold addK; split
  · rfl
  · exact h _

theorem sh_zero (r : Option (Res Span)) : sh 0 r = r := by
  rcases r with _ | _ | _ | _ <;> simp [sh, Res.shift, Span.shift]

theorem repLoop_eq {mt' mt : Pat ι β → Nat → Option (Res Span)} (p : Pat ι β) (more : Nat → Bool)
    (fin : Nat → Span → Nat → Option (Res Span)) (h : ∀ o, mt' p o = mt p o) (fuel cnt : Nat) (t : Span) (o : Nat) :
    repLoop mt' p more fin fuel cnt t o = repLoop mt p more fin fuel cnt t o := by
  induction fuel generalizing cnt t o with
  | zero => rfl
  | succ n ih => simp only [repLoop, h, ih]

theorem sepLoop_eq {mt' mt : Pat ι β → Nat → Option (Res Span)} (p s : Pat ι β) (skip : Bool) (more : Nat → Bool)
    (fin : Nat → Span → Nat → Option (Res Span)) (h : ∀ o, mt' p o = mt p o) (h2 : ∀ o, mt' s o = mt s o)
    (fuel cnt : Nat) (t : Span) (o : Nat) :
    sepLoop mt' p s skip more fin fuel cnt t o = sepLoop mt p s skip more fin fuel cnt t o := by
  induction fuel generalizing cnt t o with
  | zero => rfl
  | succ n ih => simp only [sepLoop, h, h2, ih]

theorem step_image (hf : ∀ x, Item.size (f x) = Item.size x) (fuel : Nat)
    {mt' mt : List ι → Pat ι β → Nat → Option (Res Span)} {pr' pr : Pat ι β → Nat → Option (Res Span)} (d : List ι)
    (p : Pat ι β) (o : Nat) (hp : Coarse f p) (hmt : ∀ q, Child G q p → ∀ d o, mt' (d.map f) q o = mt d q o)
    (hpr : ∀ q, Child G q p → ∀ o, pr' q o = pr q o) :
    step G fuel mt' pr' (d.map f) p o = step G fuel mt pr d p o := by
  have C : ∀ q, Child G q p → ∀ o, mt' (d.map f) q o = mt d q o := fun q hq => hmt q hq d
  have C0 : ∀ q, Child G q p → ∀ o, mt' (d.map f) q (0 + o) = sh 0 (mt d q o) := fun q hq o => by
    rw [sh_zero, Nat.zero_add]; exact C q hq o
  cases p with
  | empty => rfl
  | fail => rfl
  | start => rfl
  | anchorEnd => simp only [step, blen_image hf]
  | consume n => simp only [step, consumeParse, remK, blen_image hf]
  | consumeAll => simp only [step, blen_image hf]
  | lit l =>
    simp only [step, litParse, remK, blen_image hf, origAt_image hf]
    split
    · split
      · cases origAt d o with
        | ok r => simp only [caseO, isPrefixOf_image hp]
        | err => rfl
        | panic => rfl
      · rfl
    · rfl
  | native g => simp only [step, hp d o]
  | once u c => exact once_image hf d o hp.2 hmt hp.1
  | many1 u c => exact many1_image hf d o hp.2 hmt hp.1
  | optU u c => exact optU_image hf d o hp.2 hmt hp.1
  | many0 u c => exact many0_image hf d o hp.2 hmt hp.1
  | between m n u c => exact between_image hf d o hp.2 hmt hp.1 m n
  | times r u c => exact times_image hf d o hp.2 hmt hp.1 r
  | thenU u v c => exact thenU_image hf d o hp.2.2 hmt hp.1 hp.2.1
  | assert q value => simp only [step, C q rfl]
  | thn a b => simp only [step, C a (.inl rfl), C b (.inr rfl)]
  | ifThen a t b => simp only [step, C a (.inl rfl), C t (.inr (.inl rfl)), C b (.inr (.inr rfl))]
  | pre a b => simp only [step, C a (.inl rfl), C b (.inr rfl)]
  | suf a b => simp only [step, C a (.inl rfl), C b (.inr rfl)]
  | enclose a t b => simp only [step, C a (.inl rfl), C t (.inr (.inl rfl)), C b (.inr (.inr rfl))]
  | sepOnce a t b => simp only [step, C a (.inl rfl), C t (.inr (.inl rfl)), C b (.inr (.inr rfl))]
  | or a b => simp only [step, C a (.inl rfl), C b (.inr rfl)]
  | longest a b => simp only [step, C a (.inl rfl), C b (.inr rfl)]
  | opt q => simp only [step, C q rfl]
  | choice e items =>
    have := choiceLoop_sh (k := 0) e o items (fun it hit => C0 it.1 ⟨it, hit, rfl⟩) o
    simp only [sh_zero, Nat.zero_add] at this
    exact this
  | ltm e items =>
    have := ltmLoop_sh (k := 0) e o items (fun it hit => C0 it.1 ⟨it, hit, rfl⟩) none o
    simp only [sh_zero, Nat.zero_add] at this
    exact this
  | rep q r =>
    exact repLoop_eq q _ _ (C q rfl) fuel 0 _ o
  | rep2 q m n =>
    exact repLoop_eq q _ _ (C q rfl) fuel 0 _ o
  | collect q min =>
    exact repLoop_eq q _ _ (C q rfl) fuel 0 _ o
  | sep q s skip min =>
    exact sepLoop_eq q s skip _ _ (C q (.inl rfl)) (C s (.inr rfl)) fuel 0 _ o
  | sep2 q s skip m n =>
    exact sepLoop_eq q s skip _ _ (C q (.inl rfl)) (C s (.inr rfl)) fuel 0 _ o
  | sepCollect q s skip min =>
    exact sepLoop_eq q s skip _ _ (C q (.inl rfl)) (C s (.inr rfl)) fuel 0 _ o
  | branch t a b =>
    simp only [step, hp d o]
    rcases t d o with t | _ | _
    · cases t
      · simp only [caseO, Bool.false_eq_true, if_false, C b (.inr rfl)]
      · simp only [caseO, if_true, C a (.inl rfl)]
    · rfl
    · rfl
  | map q g => exact C q rfl o
  | pat q => exact C q rfl o
  | build q g =>
    simp only [step, C q (.inl rfl)]
    refine caseR_eq rfl (fun s o1 => ?_) (fun _ _ => rfl)
    rw [hp d o1 s]
    cases hg : g d o1 s with
    | ok p' o2 => simp only [caseR, C p' (.inr ⟨_, _, _, _, hg⟩)]
    | err => rfl
    | panic => rfl
  | dthen q g => rfl
  | cell i =>
    simp only [step]
    cases hg : G i with
    | none => rfl
    | some q => exact hpr q hg o

theorem parse_image (hf : ∀ x, Item.size (f x) = Item.size x) (n : Nat) (pol : Option (Pat ι β))
    (hpol : ∀ q, pol = some q → All G (Coarse f) q) (d : List ι) (p : Pat ι β) (hp : All G (Coarse f) p) (o : Nat) :
    parse G n pol (d.map f) p o = parse G n pol d p o := by
  induction n generalizing pol d p o with
  | zero => rfl
  | succ n ih =>
    refine step_image hf n d p o hp.self (fun q hq d o => ?_) (fun q hq o => ih pol hpol d q (hp.child hq) o)
    cases pol with
    | none => exact ih none hpol d q (hp.child hq) o
    | some w =>
      simp only [matWith]
      rw [ih none (fun _ h => by cases h) d w (hpol w rfl) o]
      exact caseR_eq rfl (fun _ o' => ih _ hpol d q (hp.child hq) o') (fun _ _ => rfl)

theorem tryMat_image (hf : ∀ x, Item.size (f x) = Item.size x) (n : Nat) (pol : Option (Pat ι β))
    (hpol : ∀ q, pol = some q → All G (Coarse f) q) (d : List ι) (p : Pat ι β) (hp : All G (Coarse f) p) (o : Nat) :
    tryMat G n pol (d.map f) p o = tryMat G n pol d p o := by
  unfold tryMat
  cases pol with
  | none => exact parse_image hf n none hpol d p hp o
  | some w =>
    simp only [matWith]
    rw [parse_image hf n none (fun _ h => by cases h) d w (hpol w rfl) o]
    exact caseR_eq rfl (fun _ o' => parse_image hf n _ hpol d p hp o') (fun _ _ => rfl)

/-! ## Building -/

theorem shC_zero {α : Type} (r : Option (CRes σ α)) : shC 0 r = r := by
  rcases r with _ | _ | _ | _ <;> simp [shC, CRes.shift]

theorem invokeK_image {H' H : Handler ι β σ} {d : List ι} (hH : ∀ o s st, H' (d.map f) o s st = H d o s st) (st : σ)
    (r : Option (Res Span)) : invokeK H' (d.map f) st r = invokeK H d st r := by
  simp only [invokeK, hH]

section ConLoops

variable {cn' cn : Pat ι β → σ → Nat → Option (CRes σ (Val β))} {ms' ms : Nat → Option (Res Span)} (p : Pat ι β)
  (skip : Bool) (more room : Nat → Bool) (fin : Nat → List (Val β) → σ → Nat → Option (CRes σ (Val β)))
  (h : ∀ st o, cn' p st o = cn p st o)
include h

theorem conRep_eq (fuel c : Nat) (l : List (Val β)) (st : σ) (o : Nat) :
    conRep cn' p more room fin fuel c l st o = conRep cn p more room fin fuel c l st o := by
  induction fuel generalizing c l st o with
  | zero => rfl
  | succ n ih => simp only [conRep, h, ih]

theorem conSep_eq (hm : ∀ o, ms' o = ms o) (fuel c : Nat) (l : List (Val β)) (st : σ) (o : Nat) :
    conSep cn' ms' p skip more room fin fuel c l st o = conSep cn ms p skip more room fin fuel c l st o := by
  induction fuel generalizing c l st o with
  | zero => rfl
  | succ n ih => simp only [conSep, h, hm, ih]

theorem conSepCollect_eq (hm : ∀ o, ms' o = ms o) (fuel : Nat) (b : Bool) (c : Nat) (l : List (Val β)) (st : σ) (o : Nat) :
    conSepCollect cn' ms' p skip fin fuel b c l st o = conSepCollect cn ms p skip fin fuel b c l st o := by
  induction fuel generalizing b c l st o with
  | zero => rfl
  | succ n ih => simp only [conSepCollect, h, hm, ih]

end ConLoops

theorem conStep_image {H' H : Handler ι β σ} (fuel : Nat) {mt' mt : Pat ι β → Nat → Option (Res Span)}
    {leaf' leaf : Option (Res Span)} {cn' cn : Pat ι β → σ → Nat → Option (CRes σ (Val β))}
    (d : List ι) (p : Pat ι β) (st : σ) (o : Nat) (hH : ∀ o s st, H' (d.map f) o s st = H d o s st)
    (hp : Coarse f p) (hlf : leaf' = leaf) (hmt : ∀ q, Child G q p → ∀ o, mt' q o = mt q o)
    (C : ∀ q, Child G q p → ∀ st o, cn' q st o = cn q st o) :
    conStep G H' fuel mt' leaf' cn' (d.map f) p st o = conStep G H fuel mt leaf cn d p st o := by
  subst hlf
  have C0 : ∀ q, Child G q p → ∀ st o, cn' q st (0 + o) = shC 0 (cn q st o) := fun q hq st o => by
    rw [shC_zero, Nat.zero_add]; exact C q hq st o
  have L := invokeK_image hH st leaf'
  cases p with
  | empty => exact L
  | fail => exact L
  | start => exact L
  | anchorEnd => exact L
  | consume n => exact L
  | consumeAll => exact L
  | lit l => exact L
  | native f => exact L
  | once u c => exact L
  | many1 u c => exact L
  | optU u c => exact L
  | many0 u c => exact L
  | between m n u c => exact L
  | times r u c => exact L
  | thenU u v c => exact L
  | assert q value => exact L
  | build q f => exact L
  | pat q => simp only [conStep, hmt q rfl]; exact invokeK_image hH st _
  | thn a b => simp only [conStep, C a (.inl rfl), C b (.inr rfl)]
  | ifThen a t b => simp only [conStep, C a (.inl rfl), hmt t (.inr (.inl rfl)), C b (.inr (.inr rfl))]
  | pre a b => simp only [conStep, hmt a (.inl rfl), C b (.inr rfl)]
  | suf a b => simp only [conStep, C a (.inl rfl), hmt b (.inr rfl)]
  | enclose a t b => simp only [conStep, hmt a (.inl rfl), C t (.inr (.inl rfl)), hmt b (.inr (.inr rfl))]
  | sepOnce a t b => simp only [conStep, C a (.inl rfl), hmt t (.inr (.inl rfl)), C b (.inr (.inr rfl))]
  | or a b => simp only [conStep, C a (.inl rfl), C b (.inr rfl)]
  | longest a b => simp only [conStep, C a (.inl rfl), C b (.inr rfl)]
  | opt q => simp only [conStep, C q rfl]
  | choice e items =>
    have := conChoice_sh (k := 0) e o items (fun it hit => C0 it.1 ⟨it, hit, rfl⟩) st o
    simp only [shC_zero, Nat.zero_add] at this
    exact this
  | ltm e items =>
    have := conLtm_sh (k := 0) e o items (fun it hit => C0 it.1 ⟨it, hit, rfl⟩) none o st o
    simp only [shC_zero, Nat.zero_add] at this
    exact this
  | rep q r =>
    exact conRep_eq q _ _ _ (C q rfl) fuel 0 [] st o
  | rep2 q m n =>
    exact conRep_eq q _ _ _ (C q rfl) fuel 0 [] st o
  | collect q min =>
    exact conRep_eq q _ _ _ (C q rfl) fuel 0 [] st o
  | sep q s skip min =>
    exact conSep_eq q skip _ _ _ (C q (.inl rfl)) (hmt s (.inr rfl)) fuel 0 [] st o
  | sep2 q s skip m n =>
    exact conSep_eq q skip _ _ _ (C q (.inl rfl)) (hmt s (.inr rfl)) fuel 0 [] st o
  | sepCollect q s skip min =>
    exact conSepCollect_eq q skip _ (C q (.inl rfl)) (hmt s (.inr rfl)) fuel false 0 [] st o
  | branch t a b =>
    simp only [conStep, hp d o]
    rcases t d o with t | _ | _
    · cases t
      · simp only [caseT, Bool.false_eq_true, if_false, C b (.inr rfl)]
      · simp only [caseT, if_true, C a (.inl rfl)]
    · rfl
    · rfl
  | map q g => simp only [conStep, C q rfl]
  | dthen q g =>
    simp only [conStep, C q (.inl rfl)]
    rcases cn q st o with _ | ⟨v, st1, o1⟩ | _ | _
    · rfl
    · simp only [caseC, hp d o1 v]
      cases hg : g d o1 v with
      | ok p' o2 => simp only [caseM, C p' (.inr ⟨_, _, _, _, hg⟩)]
      | err => rfl
      | panic => rfl
    · rfl
    · rfl
  | cell i =>
    simp only [conStep]
    cases hg : G i with
    | none => rfl
    | some q => exact C q hg st o

theorem con_image {H' H : Handler ι β σ} (hf : ∀ x, Item.size (f x) = Item.size x) (n : Nat) (pol : Option (Pat ι β))
    (hpol : ∀ q, pol = some q → All G (Coarse f) q) (d : List ι)
    (hH : ∀ o s st, H' (d.map f) o s st = H d o s st) (p : Pat ι β) (hp : All G (Coarse f) p) (st : σ) (o : Nat) :
    con G H' n pol (d.map f) p st o = con G H n pol d p st o := by
  induction n generalizing p st o with
  | zero => rfl
  | succ n ih =>
    simp only [con]
    exact conStep_image n d p st o hH hp.self (tryMat_image hf (n + 1) pol hpol d p hp o)
      (fun q hq o => tryMat_image hf n pol hpol d q (hp.child hq) o) (fun q hq st o => ih q (hp.child hq) st o)

end Neure
