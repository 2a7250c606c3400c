import Verif.BlameLemmas
import Verif.CtorTerm
/-!
# Lemmas for C85: where the errors of `construct` come from
-/

namespace Neure

set_option linter.unusedSectionVars false

variable {ι β σ : Type} [Item ι] {G : Rules ι β} {H : Handler ι β σ} {pol : Option (Pat ι β)} {d : List ι} {K : Nat → Prop}

/-! ## Staying inside `K` -/

/-- The match `m` stays in `K`. -/
def StayK (G : Rules ι β) (pol : Option (Pat ι β)) (d : List ι) (K : Nat → Prop) (m : Pat ι β) : Prop :=
  ∀ o, K o → (∀ s o', Runs G pol d m o (.ok s o') → K o') ∧ (∀ e o', Runs G pol d m o (.err e o') → K o')

/-- So does the closure of `dyn_then_ctor`. -/
def DynK (d : List ι) (K : Nat → Prop) : Pat ι β → Prop
  | .dthen _ f => ∀ o v, K o → match f d o v with
      | .ok _ o' => K o'
      | .err _ o' => K o'
      | .panic => True
  | _ => True

/-- Post-condition: the position is in `K`. -/
def InK {α : Type} (K : Nat → Prop) : CRes σ α → Prop
  | .ok _ _ o => K o
  | .err _ _ o => K o
  | .panic => True

def InKM {α : Type} (K : Nat → Prop) : Res α → Prop
  | .ok _ o => K o
  | .err _ o => K o
  | .panic => True

theorem StayK.sat {m : Pat ι β} (h : StayK G pol d K m) {o : Nat} (ho : K o) (n : Nat) :
    Sat (tryMat G n pol d m o) (InKM K) := by
  intro r hr
  cases r with
  | ok s o' => exact (h o ho).1 s o' ⟨n, hr⟩
  | err e o' => exact (h o ho).2 e o' ⟨n, hr⟩
  | panic => trivial

theorem invoke_inK {m : Option (Res Span)} {st : σ} (h : Sat m (InKM K)) : Sat (invokeK H d st m) (InK K) := by
  refine sat_caseM h trivial (fun s o' ho => ?_) fun e o' ho => Sat.some ho
  split
  · exact Sat.some ho
  · exact Sat.some ho
  · exact Sat.some trivial

theorem conFinish_inK {ok : Nat → Bool} {e : Error} {beg cnt : Nat} {w : List (Val β) → Val β}
    {vals : List (Val β)} {st : σ} {o : Nat} (hb : K beg) (ho : K o) :
    Sat (conFinish ok e beg w cnt vals st o) (InK K) := by
  unfold conFinish; split
  · exact Sat.some ho
  · exact Sat.some hb

section
variable {cn : Pat ι β → σ → Nat → Option (CRes σ (Val β))} {q : Pat ι β} {ms : Nat → Option (Res Span)}
  {more room ok : Nat → Bool} {e : Error} {beg : Nat} {w : List (Val β) → Val β}

theorem conRep_inK (hc : ∀ st o, K o → Sat (cn q st o) (InK K)) (hb : K beg) (fuel cnt : Nat) (vals : List (Val β)) (st : σ)
    (o : Nat) (ho : K o) : Sat (conRep cn q more room (conFinish ok e beg w) fuel cnt vals st o) (InK K) :=
  sat_conRep (fun _ _ o => K o) (P := fun _ _ => InK K) (fun _ _ _ h => hc _ _ h) trivial
    (fun _ _ _ _ _ _ _ h => h) (fun _ _ _ _ h => conFinish_inK hb h)
    (fun _ _ _ _ _ _ _ _ h => conFinish_inK hb h) _ _ _ _ _ ho

theorem conSep_inK {sk : Bool} (hc : ∀ st o, K o → Sat (cn q st o) (InK K)) (hm : ∀ o, K o → Sat (ms o) (InKM K))
    (hb : K beg) (fuel cnt : Nat) (vals : List (Val β)) (st : σ) (o : Nat) (ho : K o) :
    Sat (conSep cn ms q sk more room (conFinish ok e beg w) fuel cnt vals st o) (InK K) := by
  induction fuel generalizing cnt vals st o with
  | zero => exact Sat.none
  | succ n ih =>
    simp only [conSep]
    split
    · refine sat_caseC (hc _ _ ho) trivial (fun v st1 o1 h1 => sat_caseM (hm _ h1) trivial
        (fun _ _ h2 => ?_) (fun _ _ h2 => ?_)) (fun _ _ _ h => conFinish_inK hb h)
      · split
        · exact ih _ _ _ _ h2
        · exact Sat.some trivial
      · split
        · split
          · exact conFinish_inK hb h2
          · exact Sat.some trivial
        · exact conFinish_inK hb h2
    · exact conFinish_inK hb ho

theorem conSepCollect_inK {sk : Bool} (hc : ∀ st o, K o → Sat (cn q st o) (InK K)) (hm : ∀ o, K o → Sat (ms o) (InKM K))
    (hb : K beg) (fuel : Nat) (ended : Bool) (cnt : Nat) (vals : List (Val β)) (st : σ) (o : Nat) (ho : K o) :
    Sat (conSepCollect cn ms q sk (conFinish ok e beg w) fuel ended cnt vals st o) (InK K) := by
  induction fuel generalizing ended cnt vals st o with
  | zero => exact Sat.none
  | succ n ih =>
    simp only [conSepCollect]
    refine sat_caseC (hc _ _ ho) trivial (fun v st1 o1 h1 => sat_caseM (hm _ h1) trivial
      (fun _ _ h2 => ?_) (fun _ _ h2 => ?_)) (fun _ _ _ h => conFinish_inK hb h)
    · split
      · exact conFinish_inK hb h2
      · exact ih _ _ _ _ _ h2
    · split
      · exact conFinish_inK hb h2
      · split
        · exact ih _ _ _ _ _ h2
        · exact conFinish_inK hb h2

theorem conLtm_inK {items : List (Pat ι β × Option (Val β))} (hc : ∀ it ∈ items, ∀ st, Sat (cn it.1 st beg) (InK K))
    {best : Option (Val β)} {stop : Nat} {st : σ} {o : Nat} (ho : K o) :
    Sat (conLtm cn e beg items best stop st o) (InK K) := by
  induction items generalizing best stop st o with
  | nil => cases best <;> exact Sat.some ho
  | cons it items ih =>
    simp only [conLtm]
    refine sat_caseC (hc it (by simp) st) trivial (fun v st1 o1 h1 => ?_)
      fun _ st1 o1 h1 => ih (fun it h => hc it (by simp [h])) h1
    split
    · exact ih (fun it h => hc it (by simp [h])) h1
    · exact ih (fun it h => hc it (by simp [h])) h1

end

/-- If everything that is matched stays in `K`, so does constructing. -/
theorem con_inK (n : Nat) {p : Pat ι β} (hp : CAll G (fun q => (∀ m, MatchPart m q → StayK G pol d K m) ∧ DynK d K q) p)
    {st : σ} {o : Nat} (ho : K o) : Sat (con G H n pol d p st o) (InK K) := by
  induction n generalizing p st o with
  | zero => exact Sat.none
  | succ n ih =>
    have hl := hp.self
    have I : ∀ q st o, CChild G q p → K o → Sat (con G H n pol d q st o) (InK K) := fun q st o hq ho => ih (hp.child hq) ho
    have Mm : ∀ m o, MatchPart m p → K o → Sat (tryMat G n pol d m o) (InKM K) := fun m o hm ho => (hl.1 m hm).sat ho n
    have leaf : MatchPart p p → Sat (invokeK H d st (tryMat G (n + 1) pol d p o)) (InK K) :=
      fun h => invoke_inK ((hl.1 p h).sat ho (n + 1))
    have E : ∀ {e : Error} {st : σ}, Sat (some (.err e st o : CRes σ (Val β))) (InK K) := Sat.some ho
    simp only [con]
    cases p <;> simp only [conStep]
    case pat q => exact invoke_inK (Mm q o rfl ho)
    case thn a b =>
      exact sat_caseC (I a st o (.inl rfl) ho) trivial (fun _ _ _ h1 => sat_caseC (I b _ _ (.inr rfl) h1) trivial
        (fun _ _ _ h => Sat.some h) fun _ _ _ _ => E) fun _ _ _ _ => E
    case ifThen a t b =>
      exact sat_caseC (I a st o (.inl rfl) ho) trivial (fun _ _ _ h1 => sat_caseM (Mm t _ rfl h1) trivial
        (fun _ _ h2 => sat_caseC (I b _ _ (.inr rfl) h2) trivial (fun _ _ _ h => Sat.some h) fun _ _ _ _ => E)
        fun _ _ _ => Sat.some h1) fun _ _ _ _ => E
    case pre a b =>
      exact sat_caseM (Mm a o rfl ho) trivial (fun _ _ h1 => sat_caseC (I b _ _ rfl h1) trivial
        (fun _ _ _ h => Sat.some h) fun _ _ _ _ => E) fun _ _ _ => E
    case suf a b =>
      exact sat_caseC (I a st o rfl ho) trivial (fun _ _ _ h1 => sat_caseM (Mm b _ rfl h1) trivial
        (fun _ _ h => Sat.some h) fun _ _ _ => E) fun _ _ _ _ => E
    case enclose a b c =>
      exact sat_caseM (Mm a o (.inl rfl) ho) trivial (fun _ _ h1 => sat_caseC (I b _ _ rfl h1) trivial
        (fun _ _ _ h2 => sat_caseM (Mm c _ (.inr rfl) h2) trivial (fun _ _ h => Sat.some h) fun _ _ _ => E)
        fun _ _ _ _ => E) fun _ _ _ => E
    case sepOnce a b c =>
      exact sat_caseC (I a st o (.inl rfl) ho) trivial (fun _ _ _ h1 => sat_caseM (Mm b _ rfl h1) trivial
        (fun _ _ h2 => sat_caseC (I c _ _ (.inr rfl) h2) trivial (fun _ _ _ h => Sat.some h) fun _ _ _ _ => E)
        fun _ _ _ => E) fun _ _ _ _ => E
    case or a b =>
      exact sat_caseC (I a st o (.inl rfl) ho) trivial (fun _ _ _ h => Sat.some h) fun _ _ _ _ =>
        sat_caseC (I b _ o (.inr rfl) ho) trivial (fun _ _ _ h => Sat.some h) fun _ _ _ _ => E
    case longest a b =>
      refine sat_caseC (I a st o (.inl rfl) ho) trivial (fun _ _ _ h1 => sat_caseC (I b _ o (.inr rfl) ho) trivial
        (fun _ _ _ h2 => ?_) fun _ _ _ _ => Sat.some h1) fun _ _ _ _ =>
        sat_caseC (I b _ o (.inr rfl) ho) trivial (fun _ _ _ h => Sat.some h) fun _ _ _ _ => E
      split
      · exact Sat.some h1
      · exact Sat.some h2
    case opt q =>
      exact sat_caseC (I q st o rfl ho) trivial (fun _ _ _ h => Sat.some h) fun _ _ _ _ => Sat.some ho
    case choice e items =>
      exact sat_conChoice (I := fun _ => True) (P := fun _ => InK K) items (fun it hit st _ => I _ st o ⟨it, hit, rfl⟩ ho)
        trivial (fun _ _ _ _ _ _ _ h => h) (fun _ _ _ _ _ _ => trivial) (fun _ _ => ho) st trivial
    case ltm e items => exact conLtm_inK (fun it hit st => I _ st o ⟨it, hit, rfl⟩ ho) ho
    case rep q r => exact conRep_inK (fun st o => I q st o rfl) ho _ _ _ _ _ ho
    case rep2 q a b => exact conRep_inK (fun st o => I q st o rfl) ho _ _ _ _ _ ho
    case collect q a => exact conRep_inK (fun st o => I q st o rfl) ho _ _ _ _ _ ho
    case sep q s k a => exact conSep_inK (fun st o => I q st o rfl) (fun o => Mm s o rfl) ho _ _ _ _ _ ho
    case sep2 q s k a b => exact conSep_inK (fun st o => I q st o rfl) (fun o => Mm s o rfl) ho _ _ _ _ _ ho
    case sepCollect q s k a => exact conSepCollect_inK (fun st o => I q st o rfl) (fun o => Mm s o rfl) ho _ _ _ _ _ _ ho
    case branch t a b =>
      refine sat_caseT trivial (fun v _ => sat_caseC (I (if v then a else b) st o ?_ ho) trivial (fun _ _ _ h => Sat.some h)
        fun _ _ _ _ => E) fun _ _ => E
      cases v
      · exact .inr rfl
      · exact .inl rfl
    case map q f =>
      exact sat_caseC (I q st o rfl ho) trivial (fun _ _ _ h => sat_caseT trivial (fun _ _ => Sat.some h) fun _ _ => Sat.some h)
        fun _ _ _ h => Sat.some h
    case dthen q f =>
      refine sat_caseC (I q st o (.inl rfl) ho) trivial (fun v st1 o1 h1 => ?_) fun _ _ _ _ => E
      have hd := hl.2 o1 v h1
      refine sat_caseM (P := fun r => f d o1 v = r) (Sat.some rfl) trivial (fun q' o2 h2 => ?_) fun e o2 h2 => ?_
      · rw [h2] at hd
        exact sat_caseC (I q' _ _ (.inr ⟨_, _, _, _, h2⟩) hd) trivial (fun _ _ _ h => Sat.some h) fun _ _ _ _ => E
      · rw [h2] at hd; exact Sat.some hd
    case cell i =>
      split
      · exact E
      · next q hq => exact I q st o hq ho
    all_goals exact leaf rfl

/-! ## Handlers that agree where they are called -/

section
variable {H' : Handler ι β σ}

theorem caseC_congr {α γ : Type} {r r' : Option (CRes σ α)} {k k' : α → σ → Nat → Option (CRes σ γ)}
    {kE kE' : Error → σ → Nat → Option (CRes σ γ)} (h : r = r')
    (hk : ∀ a st o, r = some (.ok a st o) → k a st o = k' a st o)
    (hE : ∀ e st o, r = some (.err e st o) → kE e st o = kE' e st o) : caseC r k kE = caseC r' k' kE' := by
  subst h
  rcases r with _ | ⟨a, st, o⟩ | ⟨e, st, o⟩ | _
  · rfl
  · exact hk a st o rfl
  · exact hE e st o rfl
  · rfl

theorem caseM_congr {α γ : Type} {r : Option (Res α)} {k k' : α → Nat → Option (CRes σ γ)}
    {kE kE' : Error → Nat → Option (CRes σ γ)} (hk : ∀ a o, r = some (.ok a o) → k a o = k' a o)
    (hE : ∀ e o, r = some (.err e o) → kE e o = kE' e o) : caseM r k kE = caseM r k' kE' := by
  rcases r with _ | ⟨a, o⟩ | ⟨e, o⟩ | _
  · rfl
  · exact hk a o rfl
  · exact hE e o rfl
  · rfl

theorem caseT_congr {α γ : Type} {r : Out α} {k k' : α → Option (CRes σ γ)} {kE : Error → Option (CRes σ γ)}
    (hk : ∀ a, k a = k' a) : caseT r k kE = caseT r k' kE := by
  cases r
  · exact hk _
  · rfl
  · rfl

variable {cn cn' : Pat ι β → σ → Nat → Option (CRes σ (Val β))} {q : Pat ι β} {ms : Nat → Option (Res Span)}
  {more room : Nat → Bool} {e : Error} {beg : Nat} {fin : Nat → List (Val β) → σ → Nat → Option (CRes σ (Val β))}
  (hc : ∀ st o, K o → Sat (cn q st o) (InK K)) (hq : ∀ st o, K o → cn q st o = cn' q st o)
include hc hq

theorem conRep_congr (fuel cnt : Nat) (vals : List (Val β)) (st : σ) (o : Nat) (ho : K o) :
    conRep cn q more room fin fuel cnt vals st o = conRep cn' q more room fin fuel cnt vals st o := by
  induction fuel generalizing cnt vals st o with
  | zero => rfl
  | succ n ih =>
    simp only [conRep]
    split
    · refine caseC_congr (hq st o ho) (fun v st1 o1 h => ?_) fun _ _ _ _ => rfl
      split
      · exact ih _ _ _ _ (hc st o ho _ h)
      · rfl
    · rfl

theorem conSep_congr {sk : Bool} (hm : ∀ o, K o → Sat (ms o) (InKM K)) (fuel cnt : Nat) (vals : List (Val β)) (st : σ)
    (o : Nat) (ho : K o) :
    conSep cn ms q sk more room fin fuel cnt vals st o = conSep cn' ms q sk more room fin fuel cnt vals st o := by
  induction fuel generalizing cnt vals st o with
  | zero => rfl
  | succ n ih =>
    simp only [conSep]
    split
    · refine caseC_congr (hq st o ho) (fun v st1 o1 h => caseM_congr (fun s o2 h2 => ?_) fun _ _ _ => rfl) fun _ _ _ _ => rfl
      split
      · exact ih _ _ _ _ (hm o1 (hc st o ho _ h) _ h2)
      · rfl
    · rfl

theorem conSepCollect_congr {sk : Bool} (hm : ∀ o, K o → Sat (ms o) (InKM K)) (fuel : Nat) (ended : Bool) (cnt : Nat)
    (vals : List (Val β)) (st : σ) (o : Nat) (ho : K o) :
    conSepCollect cn ms q sk fin fuel ended cnt vals st o = conSepCollect cn' ms q sk fin fuel ended cnt vals st o := by
  induction fuel generalizing ended cnt vals st o with
  | zero => rfl
  | succ n ih =>
    simp only [conSepCollect]
    refine caseC_congr (hq st o ho) (fun v st1 o1 h => caseM_congr (fun s o2 h2 => ?_) fun e o2 h2 => ?_) fun _ _ _ _ => rfl
    · split
      · rfl
      · exact ih _ _ _ _ _ (hm o1 (hc st o ho _ h) _ h2)
    · split
      · rfl
      · split
        · exact ih _ _ _ _ _ (hm o1 (hc st o ho _ h) _ h2)
        · rfl

omit hc hq in
theorem conChoice_congr {items : List (Pat ι β × Option (Val β))} (h : ∀ it ∈ items, ∀ st, cn it.1 st beg = cn' it.1 st beg)
    (st : σ) : conChoice cn e beg items st beg = conChoice cn' e beg items st beg := by
  induction items generalizing st with
  | nil => rfl
  | cons it items ih =>
    simp only [conChoice]
    exact caseC_congr (h it (by simp) st) (fun _ _ _ _ => rfl) fun _ _ _ _ => ih (fun it hit => h it (by simp [hit])) _

omit hc hq in
theorem conLtm_congr {items : List (Pat ι β × Option (Val β))} (h : ∀ it ∈ items, ∀ st, cn it.1 st beg = cn' it.1 st beg)
    (best : Option (Val β)) (stop : Nat) (st : σ) (o : Nat) :
    conLtm cn e beg items best stop st o = conLtm cn' e beg items best stop st o := by
  induction items generalizing best stop st o with
  | nil => cases best <;> rfl
  | cons it items ih =>
    have ih' := ih fun it hit => h it (by simp [hit])
    simp only [conLtm]
    refine caseC_congr (h it (by simp) st) (fun _ _ _ _ => ?_) fun _ _ _ _ => ih' _ _ _ _
    split <;> exact ih' _ _ _ _

end

/-- Two handlers that agree on what is matched cannot be told apart. -/
theorem con_congr {H' : Handler ι β σ} {Good : Nat → Span → Prop}
    (hH : ∀ o s st, Good o s → H d o s st = H' d o s st) (n : Nat) {p : Pat ι β}
    (hp : CAll G (fun q => (∀ m, MatchPart m q → StayK G pol d K m ∧
      ∀ o s o', K o → Runs G pol d m o (.ok s o') → Good o' s) ∧ DynK d K q) p)
    {st : σ} {o : Nat} (ho : K o) : con G H n pol d p st o = con G H' n pol d p st o := by
  induction n generalizing p st o with
  | zero => rfl
  | succ n ih =>
    have hl := hp.self
    have hp' : CAll G (fun q => (∀ m, MatchPart m q → StayK G pol d K m) ∧ DynK d K q) p :=
      hp.mono fun q hq => ⟨fun m hm => (hq.1 m hm).1, hq.2⟩
    have I : ∀ q st o, CChild G q p → K o → con G H n pol d q st o = con G H' n pol d q st o :=
      fun q st o hq ho => ih (hp.child hq) ho
    have S : ∀ q st o, CChild G q p → K o → Sat (con G H n pol d q st o) (InK K) :=
      fun q st o hq ho => con_inK n (hp'.child hq) ho
    have Mm : ∀ m o, MatchPart m p → K o → Sat (tryMat G n pol d m o) (InKM K) := fun m o hm ho => ((hl.1 m hm).1).sat ho n
    have inv : ∀ {n : Nat} (m : Pat ι β), MatchPart m p → invokeK H d st (tryMat G n pol d m o) = invokeK H' d st (tryMat G n pol d m o) := by
      intro n m hm
      refine caseM_congr (fun s o' h => ?_) fun _ _ _ => rfl
      rw [hH o' s st ((hl.1 m hm).2 o s o' ho ⟨n, h⟩)]
    simp only [con]
    cases p <;> simp only [conStep]
    case pat q => exact inv q rfl
    case thn a b =>
      exact caseC_congr (I a st o (.inl rfl) ho) (fun _ _ _ h => caseC_congr (I b _ _ (.inr rfl) (S a st o (.inl rfl) ho _ h))
        (fun _ _ _ _ => rfl) fun _ _ _ _ => rfl) fun _ _ _ _ => rfl
    case ifThen a t b =>
      exact caseC_congr (I a st o (.inl rfl) ho) (fun _ _ _ h => caseM_congr (fun _ _ h2 =>
        caseC_congr (I b _ _ (.inr rfl) (Mm t _ rfl (S a st o (.inl rfl) ho _ h) _ h2)) (fun _ _ _ _ => rfl) fun _ _ _ _ => rfl)
        fun _ _ _ => rfl) fun _ _ _ _ => rfl
    case pre a b =>
      exact caseM_congr (fun _ _ h => caseC_congr (I b _ _ rfl (Mm a o rfl ho _ h)) (fun _ _ _ _ => rfl) fun _ _ _ _ => rfl)
        fun _ _ _ => rfl
    case suf a b => exact caseC_congr (I a st o rfl ho) (fun _ _ _ _ => rfl) fun _ _ _ _ => rfl
    case enclose a b c =>
      exact caseM_congr (fun _ _ h => caseC_congr (I b _ _ rfl (Mm a o (.inl rfl) ho _ h)) (fun _ _ _ _ => rfl)
        fun _ _ _ _ => rfl) fun _ _ _ => rfl
    case sepOnce a b c =>
      exact caseC_congr (I a st o (.inl rfl) ho) (fun _ _ _ h => caseM_congr (fun _ _ h2 =>
        caseC_congr (I c _ _ (.inr rfl) (Mm b _ rfl (S a st o (.inl rfl) ho _ h) _ h2)) (fun _ _ _ _ => rfl) fun _ _ _ _ => rfl)
        fun _ _ _ => rfl) fun _ _ _ _ => rfl
    case or a b =>
      exact caseC_congr (I a st o (.inl rfl) ho) (fun _ _ _ _ => rfl) fun _ _ _ _ =>
        caseC_congr (I b _ o (.inr rfl) ho) (fun _ _ _ _ => rfl) fun _ _ _ _ => rfl
    case longest a b =>
      exact caseC_congr (I a st o (.inl rfl) ho) (fun _ _ _ _ => caseC_congr (I b _ o (.inr rfl) ho) (fun _ _ _ _ => rfl)
        fun _ _ _ _ => rfl) fun _ _ _ _ => caseC_congr (I b _ o (.inr rfl) ho) (fun _ _ _ _ => rfl) fun _ _ _ _ => rfl
    case opt q => exact caseC_congr (I q st o rfl ho) (fun _ _ _ _ => rfl) fun _ _ _ _ => rfl
    case choice e items => exact conChoice_congr (fun it hit st => I _ st o ⟨it, hit, rfl⟩ ho) st
    case ltm e items => exact conLtm_congr (fun it hit st => I _ st o ⟨it, hit, rfl⟩ ho) _ _ _ _
    case rep q r => exact conRep_congr (fun st o => S q st o rfl) (fun st o => I q st o rfl) _ _ _ _ _ ho
    case rep2 q a b => exact conRep_congr (fun st o => S q st o rfl) (fun st o => I q st o rfl) _ _ _ _ _ ho
    case collect q a => exact conRep_congr (fun st o => S q st o rfl) (fun st o => I q st o rfl) _ _ _ _ _ ho
    case sep q s k a =>
      exact conSep_congr (fun st o => S q st o rfl) (fun st o => I q st o rfl) (fun o => Mm s o rfl) _ _ _ _ _ ho
    case sep2 q s k a b =>
      exact conSep_congr (fun st o => S q st o rfl) (fun st o => I q st o rfl) (fun o => Mm s o rfl) _ _ _ _ _ ho
    case sepCollect q s k a =>
      exact conSepCollect_congr (fun st o => S q st o rfl) (fun st o => I q st o rfl) (fun o => Mm s o rfl) _ _ _ _ _ _ ho
    case branch t a b =>
      refine caseT_congr fun v => caseC_congr (I (if v then a else b) st o ?_ ho) (fun _ _ _ _ => rfl) fun _ _ _ _ => rfl
      cases v
      · exact .inr rfl
      · exact .inl rfl
    case map q f => exact caseC_congr (I q st o rfl ho) (fun _ _ _ _ => rfl) fun _ _ _ _ => rfl
    case dthen q f =>
      refine caseC_congr (I q st o (.inl rfl) ho) (fun v st1 o1 h1 => caseM_congr (fun q' o2 h2 => ?_) fun _ _ _ => rfl)
        fun _ _ _ _ => rfl
      have hd := hl.2 o1 v (S q st o (.inl rfl) ho _ h1)
      have h2' := Option.some.inj h2
      rw [h2'] at hd
      exact caseC_congr (I q' _ _ (.inr ⟨_, _, _, _, h2'⟩) hd) (fun _ _ _ _ => rfl) fun _ _ _ _ => rfl
    case cell i =>
      split
      · rfl
      · next q hq => exact I q st o hq ho
    all_goals exact inv _ rfl

/-! ## Causes -/

/-- A failure satisfies `C`. -/
def CErrIs {α : Type} (C : Error → Prop) : CRes σ α → Prop
  | .err e _ _ => C e
  | _ => True

theorem conFinish_blame {C : Error → Prop} {ok : Nat → Bool} {e : Error} {beg cnt : Nat} {w : List (Val β) → Val β}
    {vals : List (Val β)} {st : σ} {o : Nat} (h : C e) : Sat (conFinish ok e beg w cnt vals st o) (CErrIs C) := by
  unfold conFinish; split
  · exact Sat.some trivial
  · exact Sat.some h

section
variable {cn : Pat ι β → σ → Nat → Option (CRes σ (Val β))} {q : Pat ι β} {ms : Nat → Option (Res Span)}
  {more room ok : Nat → Bool} {e : Error} {beg : Nat} {w : List (Val β) → Val β} {C : Error → Prop}

theorem conRep_blame (h : C e) (fuel cnt : Nat) (vals : List (Val β)) (st : σ)
    (o : Nat) : Sat (conRep cn q more room (conFinish ok e beg w) fuel cnt vals st o) (CErrIs C) :=
  sat_conRep (fun _ _ _ => True) (P := fun _ _ _ => True) (fun _ _ _ _ => csat_true _) trivial
    (fun _ _ _ _ _ _ _ _ => trivial) (fun _ _ _ _ _ => conFinish_blame h)
    (fun _ _ _ _ _ _ _ _ _ => conFinish_blame h) _ _ _ _ _ trivial

theorem conSep_blame {sk : Bool} (h : C e) (fuel cnt : Nat) (vals : List (Val β)) (st : σ) (o : Nat) :
    Sat (conSep cn ms q sk more room (conFinish ok e beg w) fuel cnt vals st o) (CErrIs C) := by
  induction fuel generalizing cnt vals st o with
  | zero => exact Sat.none
  | succ n ih =>
    simp only [conSep]
    split
    · refine sat_caseC (csat_true _) trivial (fun v st1 o1 _ => sat_caseM (csat_true _) trivial
        (fun _ _ _ => ?_) (fun _ _ _ => ?_)) (fun _ _ _ _ => conFinish_blame h)
      · split
        · exact ih _ _ _ _
        · exact Sat.some trivial
      · split
        · split
          · exact conFinish_blame h
          · exact Sat.some trivial
        · exact conFinish_blame h
    · exact conFinish_blame h

theorem conSepCollect_blame {sk : Bool} (h : C e) (fuel : Nat) (ended : Bool) (cnt : Nat) (vals : List (Val β)) (st : σ)
    (o : Nat) : Sat (conSepCollect cn ms q sk (conFinish ok e beg w) fuel ended cnt vals st o) (CErrIs C) := by
  induction fuel generalizing ended cnt vals st o with
  | zero => exact Sat.none
  | succ n ih =>
    simp only [conSepCollect]
    refine sat_caseC (csat_true _) trivial (fun v st1 o1 _ => sat_caseM (csat_true _) trivial
      (fun _ _ _ => ?_) (fun _ _ _ => ?_)) (fun _ _ _ _ => conFinish_blame h)
    · split
      · exact conFinish_blame h
      · exact ih _ _ _ _ _
    · split
      · exact conFinish_blame h
      · split
        · exact ih _ _ _ _ _
        · exact conFinish_blame h

theorem conLtm_blame {items : List (Pat ι β × Option (Val β))} (h : C e)
    {best : Option (Val β)} {stop : Nat} {st : σ} {o : Nat} : Sat (conLtm cn e beg items best stop st o) (CErrIs C) := by
  induction items generalizing best stop st o with
  | nil =>
    cases best
    · exact Sat.some h
    · exact Sat.some trivial
  | cons it items ih =>
    simp only [conLtm]
    refine sat_caseC (csat_true _) trivial (fun v st1 o1 _ => ?_) fun _ st1 o1 _ => ih
    split <;> exact ih

end

/-- What is to be shown of an error when constructing `p` at `o`. -/
def CBecause (G : Rules ι β) (H : Handler ι β σ) (pol : Option (Pat ι β)) (d : List ι) (K : Nat → Prop) (p : Pat ι β)
    (o : Nat) (e : Error) : Prop := COwn G d o e p ∨ CCause G H pol d K p o e

theorem ccause_inv (n : Nat) {S : Pat ι β → Prop} {p : Pat ι β} {st : σ} {o : Nat} (hS : CKeptIn G H pol d K S)
    (hpol : ∀ k, pol = some k → ∃ S', KeptIn G none d K S' ∧ S' k) (hp : S p) (ho : K o) :
    Sat (con G H n pol d p st o) (CErrIs fun e => CCause G H pol d K p o e) := by
  induction n generalizing p st o with
  | zero => exact Sat.none
  | succ n ih =>
    have I : ∀ q st o₁, CSpeaks G q p → K o₁ → Sat (con G H n pol d q st o₁) (fun r => match r with
        | .ok _ _ o' => K o'
        | .err e _ _ => CBecause G H pol d K p o e
        | .panic => True) := by
      intro q st o₁ hq ho₁ r hr
      cases r with
      | panic => trivial
      | ok v st' o' => exact hS.moves (hS.parts hp hq) ho₁ ⟨n, hr⟩
      | err e st' o' => exact .inr (.part hq ho₁ (ih (hS.parts hp hq) ho₁ _ hr))
    have Mm : ∀ {n} q o₁, MSpeaks q p → K o₁ → Sat (tryMat G n pol d q o₁) (fun r => match r with
        | .ok s o' => K o' ∧ Runs G pol d q o₁ (.ok s o')
        | .err e _ => CBecause G H pol d K p o e
        | .panic => True) := by
      intro n q o₁ hq ho₁ r hr
      obtain ⟨S', hS', hq'⟩ := hS.delims hp hq
      cases r with
      | panic => trivial
      | ok s o' => exact ⟨hS'.moves hq' ho₁ ⟨n, hr⟩, n, hr⟩
      | err e o' =>
        cases hk : pol with
        | none => subst hk; exact .inr (.delim hq ho₁ (cause_inv n hS' hpol hq' ho₁ _ hr))
        | some k =>
          subst hk
          obtain ⟨S₁, hS₁, hk₁⟩ := hpol k rfl
          simp only [tryMat, matWith, caseR] at hr
          split at hr
          · cases hr
          · cases hr
          · next s o₂ hk' =>
            exact .inr (.delim hq (hS₁.moves hk₁ ho₁ ⟨n, hk'⟩) (cause_inv n hS' hpol hq' (hS₁.moves hk₁ ho₁ ⟨n, hk'⟩) _ hr))
          · next e₁ o₂ hk' =>
            cases hr
            exact .inr (.skip hq rfl ho₁ (cause_inv n hS₁ (fun _ h => by cases h) hk₁ ho₁ _ hk'))
    have inv : ∀ {n} q, Handed q p → MSpeaks q p → Sat (invokeK H d st (tryMat G n pol d q o))
        (CErrIs fun e => CBecause G H pol d K p o e) := by
      intro n q hh hq
      refine sat_caseM (Mm q o hq ho) trivial (fun s o' h => ?_) fun e o' h => Sat.some h
      split
      · exact Sat.some trivial
      · next e st' he => exact Sat.some (.inr (.handler hh h.2 he))
      · exact Sat.some trivial
    have X : ∀ {e : Error} {st : σ} {o' : Nat}, CBecause G H pol d K p o e →
        Sat (some (.err e st o' : CRes σ (Val β))) (CErrIs fun e => CBecause G H pol d K p o e) := fun h => Sat.some h
    have T : ∀ {v : Val β} {st : σ} {o' : Nat}, Sat (some (.ok v st o' : CRes σ (Val β)))
        (CErrIs fun e => CBecause G H pol d K p o e) := Sat.some trivial
    have goal : Sat (con G H (n + 1) pol d p st o) (CErrIs fun e => CBecause G H pol d K p o e) := by
      simp only [con]
      cases p <;> simp only [conStep]
      case pat q => exact inv q rfl rfl
      case thn a b =>
        exact sat_caseC (I a st o (.inl rfl) ho) trivial (fun _ _ _ h1 => sat_caseC (I b _ _ (.inr rfl) h1) trivial
          (fun _ _ _ _ => T) fun _ _ _ h => X h) fun _ _ _ h => X h
      case ifThen a t b =>
        exact sat_caseC (I a st o (.inl rfl) ho) trivial (fun _ _ o1 h1 => sat_caseM (P := fun r =>
            ∀ s o', r = .ok s o' → K o') (fun r hr s o' e => by subst e; exact hS.test hp h1 ⟨n, hr⟩) trivial
          (fun s o' h2 => sat_caseC (I b _ _ (.inr rfl) (h2 s o' rfl)) trivial (fun _ _ _ _ => T) fun _ _ _ h => X h)
          fun _ _ _ => T) fun _ _ _ h => X h
      case pre a b =>
        exact sat_caseM (Mm a o rfl ho) trivial (fun _ _ h1 => sat_caseC (I b _ _ rfl h1.1) trivial
          (fun _ _ _ _ => T) fun _ _ _ h => X h) fun _ _ h => X h
      case suf a b =>
        exact sat_caseC (I a st o rfl ho) trivial (fun _ _ _ h1 => sat_caseM (Mm b _ rfl h1) trivial
          (fun _ _ _ => T) fun _ _ h => X h) fun _ _ _ h => X h
      case enclose a b c =>
        exact sat_caseM (Mm a o (.inl rfl) ho) trivial (fun _ _ h1 => sat_caseC (I b _ _ rfl h1.1) trivial
          (fun _ _ _ h2 => sat_caseM (Mm c _ (.inr rfl) h2) trivial (fun _ _ _ => T) fun _ _ h => X h)
          fun _ _ _ h => X h) fun _ _ h => X h
      case sepOnce a b c =>
        exact sat_caseC (I a st o (.inl rfl) ho) trivial (fun _ _ _ h1 => sat_caseM (Mm b _ rfl h1) trivial
          (fun _ _ h2 => sat_caseC (I c _ _ (.inr rfl) h2.1) trivial (fun _ _ _ _ => T) fun _ _ _ h => X h)
          fun _ _ h => X h) fun _ _ _ h => X h
      case or a b =>
        exact sat_caseC (csat_true _) trivial (fun _ _ _ _ => T) fun _ _ _ _ =>
          sat_caseC (I b _ o rfl ho) trivial (fun _ _ _ _ => T) fun _ _ _ h => X h
      case longest a b =>
        refine sat_caseC (csat_true _) trivial (fun _ _ _ _ => sat_caseC (csat_true _) trivial
          (fun _ _ _ _ => ?_) fun _ _ _ _ => T) fun _ _ _ _ =>
          sat_caseC (I b _ o rfl ho) trivial (fun _ _ _ _ => T) fun _ _ _ h => X h
        split <;> exact T
      case opt q =>
        exact sat_caseC (csat_true _) trivial (fun _ _ _ _ => T) fun _ _ _ _ => T
      case choice e items =>
        exact sat_conChoice (I := fun _ => True) (P := fun _ _ => True) items (fun _ _ _ _ => csat_true _)
          trivial (fun _ _ _ _ _ _ _ _ => trivial) (fun _ _ _ _ _ _ => trivial) (fun _ _ => .inl rfl) st trivial
      case ltm e items => exact conLtm_blame (.inl rfl)
      case rep q r => exact conRep_blame (.inl rfl) _ _ _ _ _
      case rep2 q a b => exact conRep_blame (.inl rfl) _ _ _ _ _
      case collect q a => exact conRep_blame (.inl rfl) _ _ _ _ _
      case sep q s k a => exact conSep_blame (.inl rfl) _ _ _ _ _
      case sep2 q s k a b => exact conSep_blame (.inl rfl) _ _ _ _ _
      case sepCollect q s k a => exact conSepCollect_blame (.inl rfl) _ _ _ _ _ _
      case branch t a b =>
        refine sat_caseT trivial (fun v _ => sat_caseC (I (if v then a else b) st o ?_ ho) trivial (fun _ _ _ _ => T)
          fun _ _ _ h => X h) fun e h => X (.inl h)
        cases v
        · exact .inr rfl
        · exact .inl rfl
      case map q f =>
        exact sat_caseC (I q st o rfl ho) trivial (fun v _ _ _ => sat_caseT trivial (fun _ _ => T) fun e h => X (.inl ⟨v, h⟩))
          fun _ _ _ h => X h
      case dthen q f =>
        refine sat_caseC (I q st o (.inl rfl) ho) trivial (fun v st1 o1 h1 => ?_) fun _ _ _ h => X h
        refine sat_caseM (P := fun r => f d o1 v = r) (Sat.some rfl) trivial (fun q' o2 h2 => ?_) fun e o2 h2 => X (.inl ⟨_, _, _, h2⟩)
        exact sat_caseC (I q' _ _ (.inr ⟨_, _, _, _, h2⟩) (hS.builds hp h1 h2)) trivial (fun _ _ _ _ => T) fun _ _ _ h => X h
      case cell i =>
        split
        · next h => exact X (.inl ⟨h, rfl⟩)
        · next q hq =>
          exact (I q st o hq ho).imp fun r h => by cases r <;> first | exact h | trivial
      all_goals exact inv _ rfl rfl
    intro r hr
    cases r with
    | err e st' o' => exact (goal _ hr).elim (fun h => .own h ⟨n + 1, hr⟩) id
    | ok => trivial
    | panic => trivial

end Neure
