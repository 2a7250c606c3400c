import Verif.Locality
import Verif.Ctor
/-!
# Lemmas for C27 (building): everything commutes with putting text in front
-/

namespace Neure

set_option linter.unusedSectionVars false
set_option linter.unusedSimpArgs false

variable {ι β σ : Type} [Item ι] {G : Rules ι β}

/-- An outcome of building, moved by `k`: the value and the handler's state stay. -/
def CRes.shift {α : Type} (k : Nat) : CRes σ α → CRes σ α
  | .ok a st o => .ok a st (k + o)
  | .err e st o => .err e st (k + o)
  | .panic => .panic

/-- A closure of `dyn_then_ctor` looks at the remaining input only. -/
def LocalDyn : Pat ι β → Prop
  | .dthen _ f => ∀ pre d o v, f (pre ++ d) (blen pre + o) v =
      match f d o v with
      | .ok p o' => .ok p (blen pre + o')
      | .err e o' => .err e (blen pre + o')
      | .panic => .panic
  | _ => True

def shC {α : Type} (k : Nat) (r : Option (CRes σ α)) : Option (CRes σ α) := r.map (CRes.shift k)

theorem caseC_sh {α γ : Type} {k : Nat} {r' r : Option (CRes σ α)} {kOk' kOk : α → σ → Nat → Option (CRes σ γ)}
    {kErr' kErr : Error → σ → Nat → Option (CRes σ γ)} (hr : r' = shC k r)
    (hok : ∀ a st o, kOk' a st (k + o) = shC k (kOk a st o))
    (herr : ∀ e st o, kErr' e st (k + o) = shC k (kErr e st o)) :
    caseC r' kOk' kErr' = shC k (caseC r kOk kErr) := by
  subst hr
  match r with
  | none => rfl
  | some (.ok a st o) => exact hok a st o
  | some (.err e st o) => exact herr e st o
  | some .panic => rfl

theorem caseM_sh {γ : Type} {k : Nat} {r' r : Option (Res Span)} {kOk' kOk : Span → Nat → Option (CRes σ γ)}
    {kErr' kErr : Error → Nat → Option (CRes σ γ)} (hr : r' = sh k r)
    (hok : ∀ s o, kOk' (s.shift k) (k + o) = shC k (kOk s o))
    (herr : ∀ e o, kErr' e (k + o) = shC k (kErr e o)) :
    caseM r' kOk' kErr' = shC k (caseM r kOk kErr) := by
  subst hr
  match r with
  | none => rfl
  | some (.ok a o) => exact hok a o
  | some (.err e o) => exact herr e o
  | some .panic => rfl

theorem caseT_sh {α γ : Type} {k : Nat} {r : Out α} {kOk' kOk : α → Option (CRes σ γ)}
    {kErr' kErr : Error → Option (CRes σ γ)} (hok : ∀ a, kOk' a = shC k (kOk a))
    (herr : ∀ e, kErr' e = shC k (kErr e)) : caseT r kOk' kErr' = shC k (caseT r kOk kErr) := by
  match r with
  | .ok a => exact hok a
  | .err e => exact herr e
  | .panic => rfl

section Loops

variable {k : Nat} {cn' cn : Pat ι β → σ → Nat → Option (CRes σ (Val β))}

theorem conChoice_sh (e : Error) (beg : Nat) (items : List (Pat ι β × Option (Val β)))
    (h : ∀ it ∈ items, ∀ st o, cn' it.1 st (k + o) = shC k (cn it.1 st o)) (st : σ) (o : Nat) :
    conChoice cn' e (k + beg) items st (k + o) = shC k (conChoice cn e beg items st o) := by
  induction items generalizing st o with
  | nil => rfl
  | cons it items ih =>
    exact caseC_sh (h it (by simp) st o) (fun _ _ _ => rfl)
      (fun _ st1 _ => ih (fun it' h' => h it' (by simp [h'])) st1 beg)

theorem conLtm_sh (e : Error) (beg : Nat) (items : List (Pat ι β × Option (Val β)))
    (h : ∀ it ∈ items, ∀ st o, cn' it.1 st (k + o) = shC k (cn it.1 st o)) (best : Option (Val β)) (stop : Nat)
    (st : σ) (o : Nat) :
    conLtm cn' e (k + beg) items best (k + stop) st (k + o) = shC k (conLtm cn e beg items best stop st o) := by
  induction items generalizing st o best stop with
  | nil => cases best <;> rfl
  | cons it items ih =>
    have ih := ih (fun it' h' => h it' (by simp [h']))
    refine caseC_sh (h it (by simp) st beg) (fun v st1 o1 => ?_) (fun _ st1 o1 => ih best stop st1 o1)
    simp only [gt_iff_lt, Nat.add_lt_add_iff_left]
    split
    · exact ih _ _ _ _
    · exact ih _ _ _ _

theorem conRep_sh (p : Pat ι β) (more room : Nat → Bool)
    {fin' fin : Nat → List (Val β) → σ → Nat → Option (CRes σ (Val β))}
    (h : ∀ st o, cn' p st (k + o) = shC k (cn p st o))
    (hf : ∀ c l st o, fin' c l st (k + o) = shC k (fin c l st o)) (fuel c : Nat) (l : List (Val β)) (st : σ) (o : Nat) :
    conRep cn' p more room fin' fuel c l st (k + o) = shC k (conRep cn p more room fin fuel c l st o) := by
  induction fuel generalizing c l st o with
  | zero => rfl
  | succ fuel ih =>
    simp only [conRep]
    split
    · refine caseC_sh (h st o) (fun v st1 o1 => ?_) (fun _ _ _ => hf _ _ _ _)
      split
      · exact ih _ _ _ _
      · rfl
    · exact hf _ _ _ _

theorem conSep_sh {ms' ms : Nat → Option (Res Span)} (p : Pat ι β) (skip : Bool) (more room : Nat → Bool)
    {fin' fin : Nat → List (Val β) → σ → Nat → Option (CRes σ (Val β))}
    (h : ∀ st o, cn' p st (k + o) = shC k (cn p st o)) (hm : ∀ o, ms' (k + o) = sh k (ms o))
    (hf : ∀ c l st o, fin' c l st (k + o) = shC k (fin c l st o)) (fuel c : Nat) (l : List (Val β)) (st : σ) (o : Nat) :
    conSep cn' ms' p skip more room fin' fuel c l st (k + o) =
      shC k (conSep cn ms p skip more room fin fuel c l st o) := by
  induction fuel generalizing c l st o with
  | zero => rfl
  | succ fuel ih =>
    simp only [conSep]
    split
    · refine caseC_sh (h st o) (fun v st1 o1 => caseM_sh (hm o1) (fun _ o2 => ?_) (fun _ o2 => ?_)) (fun _ _ _ => hf _ _ _ _)
      · split
        · exact ih _ _ _ _
        · rfl
      · split
        · split
          · exact hf _ _ _ _
          · rfl
        · exact hf _ _ _ _
    · exact hf _ _ _ _

theorem conSepCollect_sh {ms' ms : Nat → Option (Res Span)} (p : Pat ι β) (skip : Bool)
    {fin' fin : Nat → List (Val β) → σ → Nat → Option (CRes σ (Val β))}
    (h : ∀ st o, cn' p st (k + o) = shC k (cn p st o)) (hm : ∀ o, ms' (k + o) = sh k (ms o))
    (hf : ∀ c l st o, fin' c l st (k + o) = shC k (fin c l st o)) (fuel : Nat) (ended : Bool) (c : Nat)
    (l : List (Val β)) (st : σ) (o : Nat) :
    conSepCollect cn' ms' p skip fin' fuel ended c l st (k + o) =
      shC k (conSepCollect cn ms p skip fin fuel ended c l st o) := by
  induction fuel generalizing ended c l st o with
  | zero => rfl
  | succ fuel ih =>
    simp only [conSepCollect]
    refine caseC_sh (h st o) (fun v st1 o1 => caseM_sh (hm o1) (fun _ o2 => ?_) (fun _ o2 => ?_)) (fun _ _ _ => hf _ _ _ _)
    · split
      · exact hf _ _ _ _
      · exact ih _ _ _ _ _
    · split
      · exact hf _ _ _ _
      · split
        · exact ih _ _ _ _ _
        · exact hf _ _ _ _

theorem conFinish_sh (ok : Nat → Bool) (e : Error) (beg : Nat) (wrap : List (Val β) → Val β) (c : Nat)
    (l : List (Val β)) (st : σ) (o : Nat) :
    conFinish (σ := σ) ok e (k + beg) wrap c l st (k + o) = shC k (conFinish ok e beg wrap c l st o) := by
  unfold conFinish; split <;> rfl

end Loops

theorem invokeK_sh {H' H : Handler ι β σ} {pre d : List ι}
    (hH : ∀ o s st, H' (pre ++ d) (blen pre + o) (s.shift (blen pre)) st = H d o s st) (st : σ)
    {r' r : Option (Res Span)} (hr : r' = sh (blen pre) r) :
    invokeK H' (pre ++ d) st r' = shC (blen pre) (invokeK H d st r) := by
  refine caseM_sh hr (fun s o => ?_) (fun _ _ => rfl)
  rw [hH]
  rcases H d o s st with ⟨_ | _ | _, st'⟩ <;> rfl

theorem conStep_sh {H' H : Handler ι β σ} (fuel : Nat) {mt' mt : Pat ι β → Nat → Option (Res Span)}
    {leaf' leaf : Option (Res Span)} {cn' cn : Pat ι β → σ → Nat → Option (CRes σ (Val β))}
    (pre d : List ι) (p : Pat ι β) (st : σ) (o : Nat)
    (hH : ∀ o s st, H' (pre ++ d) (blen pre + o) (s.shift (blen pre)) st = H d o s st)
    (hl : All G Local p) (hd : All G LocalDyn p) (hlf : leaf' = sh (blen pre) leaf)
    (hmt : ∀ q, All G Local q → ∀ o, mt' q (blen pre + o) = sh (blen pre) (mt q o))
    (hcn : ∀ q, All G Local q → All G LocalDyn q → ∀ st o, cn' q st (blen pre + o) = shC (blen pre) (cn q st o)) :
    conStep G H' fuel mt' leaf' cn' (pre ++ d) p st (blen pre + o) =
      shC (blen pre) (conStep G H fuel mt leaf cn d p st o) := by
  have M : ∀ q, Child G q p → ∀ o, mt' q (blen pre + o) = sh (blen pre) (mt q o) :=
    fun q hq => hmt q (hl.child hq)
  have C : ∀ q, Child G q p → ∀ st o, cn' q st (blen pre + o) = shC (blen pre) (cn q st o) :=
    fun q hq => hcn q (hl.child hq) (hd.child hq)
  have loc := hl.self
  have locd := hd.self
  have L := invokeK_sh (H' := H') hH st hlf
  cases p with
  | empty => exact L
  | fail => exact L
  | start => exact L
  | anchorEnd => exact L
  | consume n => exact L
  | consumeAll => exact L
  | lit l => exact L
  | native f => exact L
  | once u c => exact L
  | many1 u c => exact L
  | optU u c => exact L
  | many0 u c => exact L
  | between m n u c => exact L
  | times r u c => exact L
  | thenU u v c => exact L
  | assert q value => exact L
  | build q f => exact L
  | pat q => exact invokeK_sh hH st (M q rfl o)
  | thn a b =>
    exact caseC_sh (C a (.inl rfl) st o) (fun _ st1 o1 => caseC_sh (C b (.inr rfl) st1 o1) (fun _ _ _ => rfl)
      (fun _ _ _ => rfl)) (fun _ _ _ => rfl)
  | ifThen a t b =>
    exact caseC_sh (C a (.inl rfl) st o) (fun _ st1 o1 => caseM_sh (M t (.inr (.inl rfl)) o1)
      (fun _ o2 => caseC_sh (C b (.inr (.inr rfl)) st1 o2) (fun _ _ _ => rfl) (fun _ _ _ => rfl))
      (fun _ _ => rfl)) (fun _ _ _ => rfl)
  | pre a b =>
    exact caseM_sh (M a (.inl rfl) o) (fun _ o1 => caseC_sh (C b (.inr rfl) st o1) (fun _ _ _ => rfl)
      (fun _ _ _ => rfl)) (fun _ _ => rfl)
  | suf a b =>
    exact caseC_sh (C a (.inl rfl) st o) (fun _ st1 o1 => caseM_sh (M b (.inr rfl) o1) (fun _ _ => rfl)
      (fun _ _ => rfl)) (fun _ _ _ => rfl)
  | enclose a t b =>
    exact caseM_sh (M a (.inl rfl) o) (fun _ o1 => caseC_sh (C t (.inr (.inl rfl)) st o1)
      (fun _ st1 o2 => caseM_sh (M b (.inr (.inr rfl)) o2) (fun _ _ => rfl) (fun _ _ => rfl))
      (fun _ _ _ => rfl)) (fun _ _ => rfl)
  | sepOnce a t b =>
    exact caseC_sh (C a (.inl rfl) st o) (fun _ st1 o1 => caseM_sh (M t (.inr (.inl rfl)) o1)
      (fun _ o2 => caseC_sh (C b (.inr (.inr rfl)) st1 o2) (fun _ _ _ => rfl) (fun _ _ _ => rfl))
      (fun _ _ => rfl)) (fun _ _ _ => rfl)
  | or a b =>
    exact caseC_sh (C a (.inl rfl) st o) (fun _ _ _ => rfl)
      (fun _ st1 _ => caseC_sh (C b (.inr rfl) st1 o) (fun _ _ _ => rfl) (fun _ _ _ => rfl))
  | longest a b =>
    refine caseC_sh (C a (.inl rfl) st o) (fun l st1 o1 => caseC_sh (C b (.inr rfl) st1 o) (fun r st2 o2 => ?_)
      (fun _ _ _ => rfl)) (fun _ st1 _ => caseC_sh (C b (.inr rfl) st1 o) (fun _ _ _ => rfl) (fun _ _ _ => rfl))
    simp only [ge_iff_le, Nat.add_le_add_iff_left]
    split <;> rfl
  | opt q => exact caseC_sh (C q rfl st o) (fun _ _ _ => rfl) (fun _ _ _ => rfl)
  | choice e items => exact conChoice_sh e o items (fun it hit => C it.1 ⟨it, hit, rfl⟩) st o
  | ltm e items => exact conLtm_sh e o items (fun it hit => C it.1 ⟨it, hit, rfl⟩) none o st o
  | rep q r => exact conRep_sh q _ _ (C q rfl) (conFinish_sh _ _ _ _) fuel 0 [] st o
  | rep2 q m n => exact conRep_sh q _ _ (C q rfl) (conFinish_sh _ _ _ _) fuel 0 [] st o
  | collect q min => exact conRep_sh q _ _ (C q rfl) (conFinish_sh _ _ _ _) fuel 0 [] st o
  | sep q s skip min =>
    exact conSep_sh q skip _ _ (C q (.inl rfl)) (M s (.inr rfl)) (conFinish_sh _ _ _ _) fuel 0 [] st o
  | sep2 q s skip m n =>
    exact conSep_sh q skip _ _ (C q (.inl rfl)) (M s (.inr rfl)) (conFinish_sh _ _ _ _) fuel 0 [] st o
  | sepCollect q s skip min =>
    exact conSepCollect_sh q skip (C q (.inl rfl)) (M s (.inr rfl)) (conFinish_sh _ _ _ _) fuel false 0 [] st o
  | branch t a b =>
    simp only [conStep]
    rw [loc pre d o]
    refine caseT_sh (fun t => caseC_sh (C _ ?_ st o) (fun _ _ _ => rfl) (fun _ _ _ => rfl)) (fun _ => rfl)
    cases t
    · exact .inr rfl
    · exact .inl rfl
  | map q f =>
    exact caseC_sh (C q rfl st o) (fun v st1 o1 => caseT_sh (fun _ => rfl) (fun _ => rfl)) (fun _ _ _ => rfl)
  | dthen q f =>
    simp only [conStep]
    refine caseC_sh (C q (.inl rfl) st o) (fun v st1 o1 => ?_) (fun _ _ _ => rfl)
    rw [locd pre d o1 v]
    cases hf : f d o1 v with
    | ok p' o2 =>
      exact caseC_sh (C p' (.inr ⟨_, _, _, _, hf⟩) st1 o2) (fun _ _ _ => rfl) (fun _ _ _ => rfl)
    | err e o2 => rfl
    | panic => rfl
  | cell i =>
    simp only [conStep]
    cases hg : G i with
    | none => rfl
    | some q => exact C q hg st o

theorem con_sh {H' H : Handler ι β σ} (n : Nat) (pol : Option (Pat ι β)) (hpol : LocalPol G pol) (pre d : List ι)
    (hH : ∀ o s st, H' (pre ++ d) (blen pre + o) (s.shift (blen pre)) st = H d o s st)
    (p : Pat ι β) (hl : All G Local p) (hd : All G LocalDyn p) (st : σ) (o : Nat) :
    con G H' n pol (pre ++ d) p st (blen pre + o) = shC (blen pre) (con G H n pol d p st o) := by
  have tm : ∀ n q, All G Local q → ∀ o, tryMat G n pol (pre ++ d) q (blen pre + o) = sh (blen pre) (tryMat G n pol d q o) :=
    fun n q hq o => mat_sh hpol pre d (fun pol h q hq o => parse_sh n pol h pre d q hq o) q hq o
  induction n generalizing p st o with
  | zero => rfl
  | succ n ih =>
    simp only [con]
    exact conStep_sh n pre d p st o hH hl hd (tm (n + 1) p hl o) (tm n) (fun q h1 h2 st o => ih q h1 h2 st o)

end Neure
