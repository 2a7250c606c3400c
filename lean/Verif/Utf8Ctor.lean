import Verif.Utf8Sim
import Verif.CtorInv
/-!
# The same grammar on a string and on its bytes: building values
-/

namespace Neure

set_option linter.unusedSectionVars false
set_option linter.unusedSimpArgs false

variable {β β' σ σ' : Type} {rv : Val β → Val β' → Prop} {ρ : β → β' → Prop} {τ : σ → σ' → Prop}

/-- Handlers for a string and for its bytes that do corresponding things with
corresponding spans (between boundaries). -/
def HandlerSim (τ : σ → σ' → Prop) (ρ : β → β' → Prop) (H : Handler Char β σ) (H' : Handler UInt8 β' σ') : Prop :=
  ∀ d o s st st', Valid d o → Valid d s.beg → Valid d (s.beg + s.len) → τ st st' →
    ROut ρ (H d o s st).1 (H' (utf8 d) o s st').1 ∧ τ (H d o s st).2 (H' (utf8 d) o s st').2

/-- Corresponding outcomes of building: same kind, same error, same position, which is
a boundary of the string. -/
inductive CtorSim (d : List Char) (τ : σ → σ' → Prop) (rv : Val β → Val β' → Prop) :
    Option (CRes σ (Val β)) → Option (CRes σ' (Val β')) → Prop where
  | none : CtorSim d τ rv none none
  | ok {v w st st' o} : Valid d o → rv v w → τ st st' → CtorSim d τ rv (some (.ok v st o)) (some (.ok w st' o))
  | err {st st' o} (e : Error) : Valid d o → τ st st' → CtorSim d τ rv (some (.err e st o)) (some (.err e st' o))
  | panic : CtorSim d τ rv (some .panic) (some .panic)

variable {d : List Char}

theorem csim_caseC {c : Option (CRes σ (Val β))} {c' : Option (CRes σ' (Val β'))}
    {k : Val β → σ → Nat → Option (CRes σ (Val β))} {k' : Val β' → σ' → Nat → Option (CRes σ' (Val β'))}
    {f : Error → σ → Nat → Option (CRes σ (Val β))} {f' : Error → σ' → Nat → Option (CRes σ' (Val β'))}
    (h : CtorSim d τ rv c c')
    (hk : ∀ v w st st' o, Valid d o → rv v w → τ st st' → CtorSim d τ rv (k v st o) (k' w st' o))
    (hf : ∀ e st st' o, Valid d o → τ st st' → CtorSim d τ rv (f e st o) (f' e st' o)) :
    CtorSim d τ rv (caseC c k f) (caseC c' k' f') := by
  cases h with
  | none => exact .none
  | ok a b c => exact hk _ _ _ _ _ a b c
  | err e a b => exact hf _ _ _ _ a b
  | panic => exact .panic

theorem csim_caseM {m m' : Option (Res Span)}
    {k : Span → Nat → Option (CRes σ (Val β))} {k' : Span → Nat → Option (CRes σ' (Val β'))}
    {f : Error → Nat → Option (CRes σ (Val β))} {f' : Error → Nat → Option (CRes σ' (Val β'))}
    (h : m' = m ∧ Sat m (OnBound d))
    (hk : ∀ s o, OnBound d (.ok s o) → CtorSim d τ rv (k s o) (k' s o))
    (hf : ∀ e o, Valid d o → CtorSim d τ rv (f e o) (f' e o)) :
    CtorSim d τ rv (caseM m k f) (caseM m' k' f') := by
  obtain ⟨rfl, hm⟩ := h
  match m', hm with
  | none, _ => exact .none
  | some (.ok s o), hm => exact hk s o (hm _ rfl)
  | some (.err e o), hm => exact hf e o (hm _ rfl)
  | some .panic, _ => exact .panic

theorem csim_invoke {H : Handler Char β σ} {H' : Handler UInt8 β' σ'} (hH : HandlerSim τ ρ H H')
    {m m' : Option (Res Span)} (h : m' = m ∧ Sat m (OnBound d)) {st : σ} {st' : σ'} (hs : τ st st') :
    CtorSim d τ (RVal ρ) (invokeK H d st m) (invokeK H' (utf8 d) st' m') := by
  refine csim_caseM h (fun s o hb => ?_) (fun e o hv => .err e hv hs)
  obtain ⟨h1, h2⟩ := hH d o s st st' hb.2.2 hb.1 hb.2.1 hs
  revert h1 h2
  generalize H d o s st = x
  generalize H' (utf8 d) o s st' = y
  obtain ⟨x1, x2⟩ := x
  obtain ⟨y1, y2⟩ := y
  intro h1 h2
  cases h1 with
  | ok hab => exact .ok hb.2.2 (.base hab) h2
  | err e => exact .err e hb.2.2 h2
  | panic => exact .panic

/-- Lists of corresponding values. -/
inductive ValsSim (rv : Val β → Val β' → Prop) : List (Val β) → List (Val β') → Prop where
  | nil : ValsSim rv [] []
  | cons {a b l m} : rv a b → ValsSim rv l m → ValsSim rv (a :: l) (b :: m)

theorem ValsSim.snoc {l : List (Val β)} {m : List (Val β')} {a b} (h : ValsSim rv l m) (hab : rv a b) :
    ValsSim rv (l ++ [a]) (m ++ [b]) := by
  induction h with
  | nil => exact .cons hab .nil
  | cons h1 _ ih => exact .cons h1 ih

theorem ValsSim.list {l : List (Val β)} {m : List (Val β')} (h : ValsSim (RVal ρ) l m) :
    RVal ρ (Val.list l) (Val.list m) := by
  induction h with
  | nil => exact .nil
  | cons h1 _ ih => exact .cons h1 ih

theorem ValsSim.padded (n : Nat) {l : List (Val β)} {m : List (Val β')} (h : ValsSim (RVal ρ) l m) :
    RVal ρ (Neure.padded n l) (Neure.padded n m) := by
  have hl : l.length = m.length := by
    induction h with
    | nil => rfl
    | cons _ _ ih => simp [ih]
  unfold Neure.padded
  rw [hl]
  refine ValsSim.list ?_
  generalize n - m.length = k
  clear hl
  induction h with
  | nil =>
    simp only [List.map_nil, List.nil_append]
    induction k with
    | zero => exact .nil
    | succ k ih => exact .cons .none ih
  | cons h1 _ ih => exact .cons (.some h1) ih

section Loops

variable {cn : Pat Char β → σ → Nat → Option (CRes σ (Val β))}
  {cn' : Pat UInt8 β' → σ' → Nat → Option (CRes σ' (Val β'))} {p : Pat Char β} {q : Pat UInt8 β'}

/-- Building corresponds at every boundary. -/
def ConSimAt (d : List Char) (τ : σ → σ' → Prop) (rv : Val β → Val β' → Prop)
    (cn : Pat Char β → σ → Nat → Option (CRes σ (Val β)))
    (cn' : Pat UInt8 β' → σ' → Nat → Option (CRes σ' (Val β'))) (p : Pat Char β) (q : Pat UInt8 β') : Prop :=
  ∀ st st' o, Valid d o → τ st st' → CtorSim d τ rv (cn p st o) (cn' q st' o)

theorem csim_choice (e : Error) {beg : Nat} (hb : Valid d beg)
    {l : List (Pat Char β × Option (Val β))} {m : List (Pat UInt8 β' × Option (Val β'))} (h : AltSim rv l m)
    (hl : ∀ it ∈ l, ∀ q, PatSim rv it.1 q → ConSimAt d τ rv cn cn' it.1 q) :
    ∀ st st' o, Valid d o → τ st st' →
      CtorSim d τ rv (conChoice cn e beg l st o) (conChoice cn' e beg m st' o) := by
  induction l generalizing m with
  | nil => cases h; exact fun st st' o ho hs => .err e ho hs
  | cons it l ih =>
    cases h with
    | cons h1 ht h2 =>
      intro st st' o ho hs
      exact csim_caseC (hl _ List.mem_cons_self _ h1 st st' o ho hs)
        (fun v w st st' o hv hr hs => .ok hv (ht _ _ hr) hs)
        (fun _ st st' o _ hs => ih h2 (fun x hx => hl x (by simp [hx])) st st' beg hb hs)

theorem csim_ltm (e : Error) {beg : Nat} (hb : Valid d beg)
    {l : List (Pat Char β × Option (Val β))} {m : List (Pat UInt8 β' × Option (Val β'))} (h : AltSim rv l m)
    (hl : ∀ it ∈ l, ∀ q, PatSim rv it.1 q → ConSimAt d τ rv cn cn' it.1 q) :
    ∀ best best' stop st st' o, ROpt rv best best' → Valid d o → τ st st' →
      CtorSim d τ rv (conLtm cn e beg l best stop st o) (conLtm cn' e beg m best' stop st' o) := by
  induction l generalizing m with
  | nil =>
    cases h
    intro best best' stop st st' o hbest ho hs
    cases hbest with
    | none => exact .err e ho hs
    | some hr => exact .ok ho hr hs
  | cons it l ih =>
    cases h with
    | cons h1 ht h2 =>
      intro best best' stop st st' o hbest ho hs
      have I := ih h2 (fun x hx => hl x (by simp [hx]))
      refine csim_caseC (hl _ List.mem_cons_self _ h1 st st' beg hb hs) (fun v w st st' o hv hr hs => ?_)
        (fun _ st st' o hv hs => I _ _ _ _ _ _ hbest hv hs)
      split
      · exact I _ _ _ _ _ _ (.some (ht _ _ hr)) hv hs
      · exact I _ _ _ _ _ _ hbest hv hs

variable {fin : Nat → List (Val β) → σ → Nat → Option (CRes σ (Val β))}
  {fin' : Nat → List (Val β') → σ' → Nat → Option (CRes σ' (Val β'))}

theorem csim_rep (more room : Nat → Bool) (h : ConSimAt d τ rv cn cn' p q)
    (hfin : ∀ cnt vals vals' st st' o, ValsSim rv vals vals' → Valid d o → τ st st' →
      CtorSim d τ rv (fin cnt vals st o) (fin' cnt vals' st' o)) :
    ∀ fuel cnt vals vals' st st' o, ValsSim rv vals vals' → Valid d o → τ st st' →
      CtorSim d τ rv (conRep cn p more room fin fuel cnt vals st o)
        (conRep cn' q more room fin' fuel cnt vals' st' o) := by
  intro fuel
  induction fuel with
  | zero => intros; exact .none
  | succ n ih =>
    intro cnt vals vals' st st' o hvs ho hs
    simp only [conRep]
    split
    · refine csim_caseC (h st st' o ho hs) (fun v w st st' o hv hr hs => ?_)
        (fun _ st st' o hv hs => hfin _ _ _ _ _ _ hvs hv hs)
      split
      · exact ih _ _ _ _ _ _ (hvs.snoc hr) hv hs
      · exact .panic
    · exact hfin _ _ _ _ _ _ hvs ho hs

theorem csim_sep {ms ms' : Nat → Option (Res Span)}
    (hm : ∀ o, Valid d o → ms' o = ms o ∧ Sat (ms o) (OnBound d)) (skip : Bool) (more room : Nat → Bool)
    (h : ConSimAt d τ rv cn cn' p q)
    (hfin : ∀ cnt vals vals' st st' o, ValsSim rv vals vals' → Valid d o → τ st st' →
      CtorSim d τ rv (fin cnt vals st o) (fin' cnt vals' st' o)) :
    ∀ fuel cnt vals vals' st st' o, ValsSim rv vals vals' → Valid d o → τ st st' →
      CtorSim d τ rv (conSep cn ms p skip more room fin fuel cnt vals st o)
        (conSep cn' ms' q skip more room fin' fuel cnt vals' st' o) := by
  intro fuel
  induction fuel with
  | zero => intros; exact .none
  | succ n ih =>
    intro cnt vals vals' st st' o hvs ho hs
    simp only [conSep]
    split
    · refine csim_caseC (h st st' o ho hs) (fun v w st st' o hv hr hs => ?_)
        (fun _ st st' o hv hs => hfin _ _ _ _ _ _ hvs hv hs)
      refine csim_caseM (hm o hv) (fun _ o2 hb => ?_) (fun _ o2 hv2 => ?_)
      · split
        · exact ih _ _ _ _ _ _ (hvs.snoc hr) hb.2.2 hs
        · exact .panic
      · split
        · split
          · exact hfin _ _ _ _ _ _ (hvs.snoc hr) hv2 hs
          · exact .panic
        · exact hfin _ _ _ _ _ _ hvs hv2 hs
    · exact hfin _ _ _ _ _ _ hvs ho hs

theorem csim_sepCollect {ms ms' : Nat → Option (Res Span)}
    (hm : ∀ o, Valid d o → ms' o = ms o ∧ Sat (ms o) (OnBound d)) (skip : Bool)
    (h : ConSimAt d τ rv cn cn' p q)
    (hfin : ∀ cnt vals vals' st st' o, ValsSim rv vals vals' → Valid d o → τ st st' →
      CtorSim d τ rv (fin cnt vals st o) (fin' cnt vals' st' o)) :
    ∀ fuel ended cnt vals vals' st st' o, ValsSim rv vals vals' → Valid d o → τ st st' →
      CtorSim d τ rv (conSepCollect cn ms p skip fin fuel ended cnt vals st o)
        (conSepCollect cn' ms' q skip fin' fuel ended cnt vals' st' o) := by
  intro fuel
  induction fuel with
  | zero => intros; exact .none
  | succ n ih =>
    intro ended cnt vals vals' st st' o hvs ho hs
    simp only [conSepCollect]
    refine csim_caseC (h st st' o ho hs) (fun v w st st' o hv hr hs => ?_)
      (fun _ st st' o hv hs => hfin _ _ _ _ _ _ hvs hv hs)
    refine csim_caseM (hm o hv) (fun _ o2 hb => ?_) (fun _ o2 hv2 => ?_)
    · split
      · exact hfin _ _ _ _ _ _ hvs hb.2.2 hs
      · exact ih _ _ _ _ _ _ _ (hvs.snoc hr) hb.2.2 hs
    · split
      · exact hfin _ _ _ _ _ _ hvs hv2 hs
      · split
        · exact ih _ _ _ _ _ _ _ (hvs.snoc hr) hv2 hs
        · exact hfin _ _ _ _ _ _ hvs hv2 hs

theorem csim_finish (ok : Nat → Bool) (e : Error) {beg : Nat} (hb : Valid d beg)
    {w : List (Val β) → Val β} {w' : List (Val β') → Val β'}
    (hw : ∀ l m, ValsSim rv l m → rv (w l) (w' m)) (cnt : Nat) (vals : List (Val β)) (vals' : List (Val β'))
    (st : σ) (st' : σ') (o : Nat) (hvs : ValsSim rv vals vals') (ho : Valid d o) (hs : τ st st') :
    CtorSim d τ rv (conFinish ok e beg w cnt vals st o) (conFinish ok e beg w' cnt vals' st' o) := by
  unfold conFinish
  split
  · exact .ok ho (hw _ _ hvs) hs
  · exact .err e hb hs

end Loops

theorem tryMat_sim {G : Rules Char β} {G' : Rules UInt8 β'} (hG : RulesSim rv G G') (n : Nat)
    {pol : Option (Pat Char β)} {pol' : Option (Pat UInt8 β')} (hpol : PolSim rv pol pol') (hb : BoundPol G pol)
    {p : Pat Char β} {q : Pat UInt8 β'} (h : PatSim rv p q) (hp : All G (Bounded G pol) p) (d : List Char) (o : Nat)
    (ho : Valid d o) : tryMat G' n pol' (utf8 d) q o = tryMat G n pol d p o ∧ Sat (tryMat G n pol d p o) (OnBound d) := by
  have hb0 : BoundPol G (none : Option (Pat Char β)) := fun _ h => by cases h
  refine ⟨?_, bound_mat (fun w hw o ho => bound_inv G n none hb0 d w o ho (hb w hw))
    (fun o ho => bound_inv G n pol hb d p o ho hp) ho⟩
  unfold tryMat matWith
  match pol, pol', hpol with
  | none, none, hpol => exact parse_sim hG n none none hpol hb h hp d o ho
  | some w, some w', hpol =>
    exact caseR_sim (parse_sim hG n none none trivial hb0 hpol (hb w rfl) d o ho)
      (bound_inv G n none hb0 d w o ho (hb w rfl))
      (fun _ o' hs => parse_sim hG n (some w) (some w') hpol hb h hp d o' hs.2.2) (fun _ _ _ => rfl)

theorem con_sim {G : Rules Char β} {G' : Rules UInt8 β'} (hG : RulesSim (RVal ρ) G G')
    {H : Handler Char β σ} {H' : Handler UInt8 β' σ'} (hH : HandlerSim τ ρ H H') (n : Nat)
    {pol : Option (Pat Char β)} {pol' : Option (Pat UInt8 β')} (hpol : PolSim (RVal ρ) pol pol') (hb : BoundPol G pol)
    {p : Pat Char β} {q : Pat UInt8 β'} (h : PatSim (RVal ρ) p q) (hp : All G (Bounded G pol) p) (d : List Char)
    (st : σ) (st' : σ') (o : Nat) (ho : Valid d o) (hs : τ st st') :
    CtorSim d τ (RVal ρ) (con G H n pol d p st o) (con G' H' n pol' (utf8 d) q st' o) := by
  induction n generalizing p q st st' o with
  | zero => exact .none
  | succ n ih =>
    have L := tryMat_sim hG (n + 1) hpol hb h hp d o ho
    have M : ∀ {a b}, Child G a p → PatSim (RVal ρ) a b → ∀ o, Valid d o →
        tryMat G' n pol' (utf8 d) b o = tryMat G n pol d a o ∧ Sat (tryMat G n pol d a o) (OnBound d) :=
      fun hc hab o ho => tryMat_sim hG n hpol hb hab (hp.child hc) d o ho
    have C : ∀ {a b}, Child G a p → PatSim (RVal ρ) a b →
        ConSimAt d τ (RVal ρ) (con G H n pol d) (con G' H' n pol' (utf8 d)) a b :=
      fun hc hab st st' o ho hs => ih hab (hp.child hc) st st' o ho hs
    simp only [con]
    cases h with
    | empty | fail | start | anchorEnd | consume | consumeAll | lit | native | once | many1 | many1Wide | optU | many0
    | many0Wide | between | times | thenU | assert | build => exact csim_invoke hH L hs
    | pat h1 => exact csim_invoke hH (M rfl h1 o ho) hs
    | thn h1 h2 =>
      exact csim_caseC (C (.inl rfl) h1 _ _ o ho hs)
        (fun v w st st' o1 hv hr hs => csim_caseC (C (.inr rfl) h2 _ _ o1 hv hs)
          (fun v2 w2 _ _ _ hv hr2 hs => .ok hv (.pair hr hr2) hs) (fun e _ _ _ _ hs => .err e ho hs))
        (fun e _ _ _ _ hs => .err e ho hs)
    | ifThen h1 h2 h3 =>
      exact csim_caseC (C (.inl rfl) h1 _ _ o ho hs)
        (fun v w st st' o1 hv hr hs => csim_caseM (M (.inr (.inl rfl)) h2 o1 hv)
          (fun _ o2 hb2 => csim_caseC (C (.inr (.inr rfl)) h3 _ _ o2 hb2.2.2 hs)
            (fun _ _ _ _ _ hv hr2 hs => .ok hv (.pair hr (.some hr2)) hs) (fun e _ _ _ _ hs => .err e ho hs))
          (fun _ _ _ => .ok hv (.pair hr .none) hs))
        (fun e _ _ _ _ hs => .err e ho hs)
    | pre h1 h2 =>
      exact csim_caseM (M (.inl rfl) h1 o ho)
        (fun _ o1 hb1 => csim_caseC (C (.inr rfl) h2 _ _ o1 hb1.2.2 hs)
          (fun _ _ _ _ _ hv hr hs => .ok hv hr hs) (fun e _ _ _ _ hs => .err e ho hs))
        (fun e _ _ => .err e ho hs)
    | suf h1 h2 =>
      exact csim_caseC (C (.inl rfl) h1 _ _ o ho hs)
        (fun _ _ _ _ o1 hv hr hs => csim_caseM (M (.inr rfl) h2 o1 hv)
          (fun _ _ hb2 => .ok hb2.2.2 hr hs) (fun e _ _ => .err e ho hs))
        (fun e _ _ _ _ hs => .err e ho hs)
    | enclose h1 h2 h3 =>
      exact csim_caseM (M (.inl rfl) h1 o ho)
        (fun _ o1 hb1 => csim_caseC (C (.inr (.inl rfl)) h2 _ _ o1 hb1.2.2 hs)
          (fun _ _ _ _ o2 hv hr hs => csim_caseM (M (.inr (.inr rfl)) h3 o2 hv)
            (fun _ _ hb3 => .ok hb3.2.2 hr hs) (fun e _ _ => .err e ho hs))
          (fun e _ _ _ _ hs => .err e ho hs))
        (fun e _ _ => .err e ho hs)
    | sepOnce h1 h2 h3 =>
      exact csim_caseC (C (.inl rfl) h1 _ _ o ho hs)
        (fun v w st st' o1 hv hr hs => csim_caseM (M (.inr (.inl rfl)) h2 o1 hv)
          (fun _ o2 hb2 => csim_caseC (C (.inr (.inr rfl)) h3 _ _ o2 hb2.2.2 hs)
            (fun _ _ _ _ _ hv hr2 hs => .ok hv (.pair hr hr2) hs) (fun e _ _ _ _ hs => .err e ho hs))
          (fun e _ _ => .err e ho hs))
        (fun e _ _ _ _ hs => .err e ho hs)
    | or h1 h2 =>
      exact csim_caseC (C (.inl rfl) h1 _ _ o ho hs) (fun _ _ _ _ _ hv hr hs => .ok hv hr hs)
        (fun _ _ _ _ _ hs => csim_caseC (C (.inr rfl) h2 _ _ o ho hs) (fun _ _ _ _ _ hv hr hs => .ok hv hr hs)
          (fun e _ _ _ _ hs => .err e ho hs))
    | longest h1 h2 =>
      refine csim_caseC (C (.inl rfl) h1 _ _ o ho hs)
        (fun v w st st' o1 hv hr hs => csim_caseC (C (.inr rfl) h2 _ _ o ho hs)
          (fun _ _ _ _ o2 hv2 hr2 hs => ?_) (fun _ _ _ _ _ hs => .ok hv hr hs))
        (fun _ _ _ _ _ hs => csim_caseC (C (.inr rfl) h2 _ _ o ho hs) (fun _ _ _ _ _ hv hr hs => .ok hv hr hs)
          (fun e _ _ _ _ hs => .err e ho hs))
      split
      · exact .ok hv hr hs
      · exact .ok hv2 hr2 hs
    | opt h1 =>
      exact csim_caseC (C rfl h1 _ _ o ho hs) (fun _ _ _ _ _ hv hr hs => .ok hv (.some hr) hs)
        (fun _ _ _ _ _ hs => .ok ho .none hs)
    | choice e h1 => exact csim_choice e ho h1 (fun it hit b hab => C ⟨it, hit, rfl⟩ hab) _ _ o ho hs
    | ltm e h1 => exact csim_ltm e ho h1 (fun it hit b hab => C ⟨it, hit, rfl⟩ hab) _ _ _ _ _ o .none ho hs
    | rep r h1 =>
      exact csim_rep _ _ (C rfl h1) (csim_finish _ _ ho fun _ _ => ValsSim.list) _ _ _ _ _ _ o .nil ho hs
    | rep2 m k h1 =>
      exact csim_rep _ _ (C rfl h1) (csim_finish _ _ ho fun _ _ => ValsSim.padded k) _ _ _ _ _ _ o .nil ho hs
    | collect m h1 =>
      exact csim_rep _ _ (C rfl h1) (csim_finish _ _ ho fun _ _ => ValsSim.list) _ _ _ _ _ _ o .nil ho hs
    | sep skip m h1 h2 =>
      exact csim_sep (M (.inr rfl) h2) _ _ _ (C (.inl rfl) h1) (csim_finish _ _ ho fun _ _ => ValsSim.list)
        _ _ _ _ _ _ o .nil ho hs
    | sep2 skip m k h1 h2 =>
      exact csim_sep (M (.inr rfl) h2) _ _ _ (C (.inl rfl) h1) (csim_finish _ _ ho fun _ _ => ValsSim.padded k)
        _ _ _ _ _ _ o .nil ho hs
    | sepCollect skip m h1 h2 =>
      exact csim_sepCollect (M (.inr rfl) h2) _ (C (.inl rfl) h1) (csim_finish _ _ ho fun _ _ => ValsSim.list)
        _ _ _ _ _ _ _ o .nil ho hs
    | @branch f g a a' b b' hf h1 h2 =>
      simp only [conStep]
      rw [hf d o ho]
      cases g (utf8 d) o with
      | panic => exact .panic
      | err e => exact .err e ho hs
      | ok t =>
        cases t with
        | true =>
          exact csim_caseC (C (.inl rfl) h1 _ _ o ho hs) (fun _ _ _ _ _ hv hr hs => .ok hv hr hs)
            (fun e _ _ _ _ hs => .err e ho hs)
        | false =>
          exact csim_caseC (C (.inr rfl) h2 _ _ o ho hs) (fun _ _ _ _ _ hv hr hs => .ok hv hr hs)
            (fun e _ _ _ _ hs => .err e ho hs)
    | @map a b f g h1 hf =>
      refine csim_caseC (C rfl h1 _ _ o ho hs) (fun v w _ _ _ hv hr hs => ?_) (fun e _ _ _ hv hs => .err e hv hs)
      have := hf v w hr
      revert this
      generalize f v = x
      generalize g w = y
      intro hxy
      cases hxy with
      | ok hr => exact .ok hv hr hs
      | err e => exact .err e hv hs
      | panic => exact .panic
    | @dthen a b f g h1 hf =>
      refine csim_caseC (C (.inl rfl) h1 _ _ o ho hs) (fun v w st st' o1 hv hr hs => ?_)
        (fun e _ _ _ _ hs => .err e ho hs)
      have hbt := hf d o1 v w hv hr
      generalize hx : f d o1 v = x at hbt
      generalize g (utf8 d) o1 w = y at hbt
      cases hbt with
      | ok hv2 hpq =>
        exact csim_caseC (C (.inr ⟨_, _, _, _, hx⟩) hpq _ _ _ hv2 hs)
          (fun _ _ _ _ _ hv hr2 hs => .ok hv (.pair hr hr2) hs) (fun e _ _ _ _ hs => .err e ho hs)
      | err e hv2 => exact .err e hv2 hs
      | panic => exact .panic
    | cell i =>
      simp only [conStep]
      have hi := hG i
      cases hg : G i with
      | none =>
        rw [hg] at hi
        cases hg' : G' i with
        | none => exact .err _ ho hs
        | some b => rw [hg'] at hi; exact hi.elim
      | some a =>
        rw [hg] at hi
        cases hg' : G' i with
        | none => rw [hg'] at hi; exact hi.elim
        | some b => rw [hg'] at hi; exact C hg hi _ _ o ho hs

end Neure
