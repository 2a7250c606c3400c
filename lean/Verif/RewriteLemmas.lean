import Verif.RewriteSpec
import Verif.Refactor
/-!
# Lemmas about patterns that behave alike
-/

namespace Neure

set_option linter.unusedSectionVars false

variable {ι β σ : Type} [Item ι] {G G' : Rules ι β} {R : Pat ι β → Pat ι β → Prop}
  {E : Error → Error → Prop}

/-- What the first returns, the second returns too, up to error values. -/
def LeE {α : Type} (E : Error → Error → Prop) (x y : Option (Res α)) : Prop :=
  ∀ r, x = some r → ∃ r', y = some r' ∧ SameRes E r r'

/-- The same for construction. -/
def LeCE {α : Type} (E : Error → Error → Prop) (x y : Option (CRes σ α)) : Prop :=
  ∀ r, x = some r → ∃ r', y = some r' ∧ SameCRes E r r'

/-- A result leaves a position in `K`. -/
def InR {α : Type} (K : Nat → Prop) : Res α → Prop
  | .ok _ o => K o
  | .err _ o => K o
  | .panic => True

/-- The same for construction. -/
def InC {α : Type} (K : Nat → Prop) : CRes σ α → Prop
  | .ok _ _ o => K o
  | .err _ _ o => K o
  | .panic => True

/-- `LeE`, and the position stays in `K`. -/
def LeK {α : Type} (E : Error → Error → Prop) (K : Nat → Prop) (x y : Option (Res α)) : Prop :=
  LeE E x y ∧ ∀ r, x = some r → InR K r

/-- The same for construction. -/
def LeCK {α : Type} (E : Error → Error → Prop) (K : Nat → Prop) (x y : Option (CRes σ α)) : Prop :=
  LeCE E x y ∧ ∀ r, x = some r → InC K r

/-- Closures of `dyn_then` and `dyn_then_ctor` keep the position in `K`. -/
def BuildsK (K : List ι → Nat → Prop) : Pat ι β → Prop
  | .build _ f => ∀ d o s p o', K d o → f d o s = .ok p o' → K d o'
  | .dthen _ f => ∀ d o v p o', K d o → f d o v = .ok p o' → K d o'
  | _ => True

section
variable (hE : ∀ e, E e e)
include hE

theorem SameRes.refl {α : Type} (r : Res α) : SameRes E r r := by
  cases r with
  | ok a o => exact .ok a o
  | err e o => exact .err o (hE e)
  | panic => exact .panic

theorem SameCRes.refl {α : Type} (r : CRes σ α) : SameCRes E r r := by
  cases r with
  | ok a st o => exact .ok a st o
  | err e st o => exact .err st o (hE e)
  | panic => exact .panic

theorem LeE.of_le {α : Type} {x y : Option (Res α)} (h : Le x y) : LeE E x y :=
  fun r hr => ⟨r, h r hr, SameRes.refl hE r⟩

theorem LeCE.of_le {α : Type} {x y : Option (CRes σ α)} (h : Le x y) : LeCE E x y :=
  fun r hr => ⟨r, h r hr, SameCRes.refl hE r⟩

end

theorem LeE.none {α : Type} {y : Option (Res α)} : LeE E none y := fun _ h => by cases h
theorem LeCE.none {α : Type} {y : Option (CRes σ α)} : LeCE E none y := fun _ h => by cases h

theorem LeE.le_trans {α : Type} {x y z : Option (Res α)} (h : Le x y) (h' : LeE E y z) : LeE E x z :=
  fun r hr => h' r (h r hr)
theorem LeE.trans_le {α : Type} {x y z : Option (Res α)} (h : LeE E x y) (h' : Le y z) : LeE E x z :=
  fun r hr => let ⟨r', h1, h2⟩ := h r hr; ⟨r', h' r' h1, h2⟩
theorem LeCE.le_trans {α : Type} {x y z : Option (CRes σ α)} (h : Le x y) (h' : LeCE E y z) :
    LeCE E x z := fun r hr => h' r (h r hr)
theorem LeCE.trans_le {α : Type} {x y z : Option (CRes σ α)} (h : LeCE E x y) (h' : Le y z) :
    LeCE E x z := fun r hr => let ⟨r', h1, h2⟩ := h r hr; ⟨r', h' r' h1, h2⟩

section
variable (hT : ∀ a b c, E a b → E b c → E a c)
include hT

theorem SameRes.trans {α : Type} {a b c : Res α} (h : SameRes E a b) (h' : SameRes E b c) : SameRes E a c := by
  cases h with
  | ok => exact h'
  | err o h1 => cases h' with | err _ h2 => exact .err o (hT _ _ _ h1 h2)
  | panic => exact h'

theorem SameCRes.trans {α : Type} {a b c : CRes σ α} (h : SameCRes E a b) (h' : SameCRes E b c) :
    SameCRes E a c := by
  cases h with
  | ok => exact h'
  | err st o h1 => cases h' with | err _ _ h2 => exact .err st o (hT _ _ _ h1 h2)
  | panic => exact h'

theorem LeE.trans {α : Type} {x y z : Option (Res α)} (h : LeE E x y) (h' : LeE E y z) : LeE E x z :=
  fun r hr =>
    let ⟨_, h1, h2⟩ := h r hr
    let ⟨r'', h3, h4⟩ := h' _ h1
    ⟨r'', h3, SameRes.trans hT h2 h4⟩

theorem LeCE.trans {α : Type} {x y z : Option (CRes σ α)} (h : LeCE E x y) (h' : LeCE E y z) : LeCE E x z :=
  fun r hr =>
    let ⟨_, h1, h2⟩ := h r hr
    let ⟨r'', h3, h4⟩ := h' _ h1
    ⟨r'', h3, SameCRes.trans hT h2 h4⟩

end

theorem caseR_leE {α γ : Type} {x y : Option (Res α)} {k k' : α → Nat → Option (Res γ)}
    {e e' : Error → Nat → Option (Res γ)} (h : LeE E x y) (hk : ∀ a o, LeE E (k a o) (k' a o))
    (he : ∀ a b o, E a b → LeE E (e a o) (e' b o)) : LeE E (caseR x k e) (caseR y k' e') := by
  intro r hr
  cases x with
  | none => cases hr
  | some v =>
    obtain ⟨v', rfl, hv⟩ := h v rfl
    cases hv with
    | ok a o => exact hk a o r hr
    | err o hab => exact he _ _ o hab r hr
    | panic => cases hr; exact ⟨_, rfl, .panic⟩

theorem caseR_leK {α γ : Type} {K : Nat → Prop} {x y : Option (Res α)} {k k' : α → Nat → Option (Res γ)}
    {e e' : Error → Nat → Option (Res γ)} (h : LeK E K x y) (hk : ∀ a o, K o → LeE E (k a o) (k' a o))
    (he : ∀ a b o, E a b → LeE E (e a o) (e' b o)) : LeE E (caseR x k e) (caseR y k' e') := by
  intro r hr
  cases x with
  | none => cases hr
  | some v =>
    obtain ⟨v', rfl, hv⟩ := h.1 v rfl
    have hK := h.2 v rfl
    cases hv with
    | ok a o => exact hk a o hK r hr
    | err o hab => exact he _ _ o hab r hr
    | panic => cases hr; exact ⟨_, rfl, .panic⟩

theorem caseM_leK {α γ : Type} {K : Nat → Prop} {x y : Option (Res α)} {k k' : α → Nat → Option (CRes σ γ)}
    {e e' : Error → Nat → Option (CRes σ γ)} (h : LeK E K x y) (hk : ∀ a o, K o → LeCE E (k a o) (k' a o))
    (he : ∀ a b o, K o → E a b → LeCE E (e a o) (e' b o)) : LeCE E (caseM x k e) (caseM y k' e') := by
  intro r hr
  cases x with
  | none => cases hr
  | some v =>
    obtain ⟨v', rfl, hv⟩ := h.1 v rfl
    have hK := h.2 v rfl
    cases hv with
    | ok a o => exact hk a o hK r hr
    | err o hab => exact he _ _ o hK hab r hr
    | panic => cases hr; exact ⟨_, rfl, .panic⟩

theorem caseC_leK {α γ : Type} {K : Nat → Prop} {x y : Option (CRes σ α)} {k k' : α → σ → Nat → Option (CRes σ γ)}
    {e e' : Error → σ → Nat → Option (CRes σ γ)} (h : LeCK E K x y)
    (hk : ∀ a st o, K o → LeCE E (k a st o) (k' a st o))
    (he : ∀ a b st o, E a b → LeCE E (e a st o) (e' b st o)) : LeCE E (caseC x k e) (caseC y k' e') := by
  intro r hr
  cases x with
  | none => cases hr
  | some v =>
    obtain ⟨v', rfl, hv⟩ := h.1 v rfl
    have hK := h.2 v rfl
    cases hv with
    | ok a st o => exact hk a st o hK r hr
    | err st o hab => exact he _ _ st o hab r hr
    | panic => cases hr; exact ⟨_, rfl, .panic⟩

theorem caseM_leE {α γ : Type} {x y : Option (Res α)} {k k' : α → Nat → Option (CRes σ γ)}
    {e e' : Error → Nat → Option (CRes σ γ)} (h : LeE E x y) (hk : ∀ a o, LeCE E (k a o) (k' a o))
    (he : ∀ a b o, E a b → LeCE E (e a o) (e' b o)) : LeCE E (caseM x k e) (caseM y k' e') := by
  intro r hr
  cases x with
  | none => cases hr
  | some v =>
    obtain ⟨v', rfl, hv⟩ := h v rfl
    cases hv with
    | ok a o => exact hk a o r hr
    | err o hab => exact he _ _ o hab r hr
    | panic => cases hr; exact ⟨_, rfl, .panic⟩

theorem caseC_leE {α γ : Type} {x y : Option (CRes σ α)} {k k' : α → σ → Nat → Option (CRes σ γ)}
    {e e' : Error → σ → Nat → Option (CRes σ γ)} (h : LeCE E x y)
    (hk : ∀ a st o, LeCE E (k a st o) (k' a st o))
    (he : ∀ a b st o, E a b → LeCE E (e a st o) (e' b st o)) : LeCE E (caseC x k e) (caseC y k' e') := by
  intro r hr
  cases x with
  | none => cases hr
  | some v =>
    obtain ⟨v', rfl, hv⟩ := h v rfl
    cases hv with
    | ok a st o => exact hk a st o r hr
    | err st o hab => exact he _ _ st o hab r hr
    | panic => cases hr; exact ⟨_, rfl, .panic⟩

theorem addK_leE {γ : Type} {s t : Span} {k k' : Span → Option (Res γ)} (h : ∀ s, LeE E (k s) (k' s)) :
    LeE E (addK s t k) (addK s t k') := by
  unfold addK
  cases s.addAssign t with
  | none => intro r hr; cases hr; exact ⟨_, rfl, .panic⟩
  | some s' => exact h s'

theorem ite_leE {α : Type} {c : Prop} [Decidable c] {x x' y y' : Option (Res α)} (h : LeE E x x')
    (h' : LeE E y y') : LeE E (if c then x else y) (if c then x' else y') := by
  by_cases hc : c <;> simp only [hc, if_true, if_false] <;> assumption

theorem ite_leCE {α : Type} {c : Prop} [Decidable c] {x x' y y' : Option (CRes σ α)} (h : LeCE E x x')
    (h' : LeCE E y y') : LeCE E (if c then x else y) (if c then x' else y') := by
  by_cases hc : c <;> simp only [hc, if_true, if_false] <;> assumption

theorem err_leE {α : Type} {a b : Error} (h : E a b) (o : Nat) :
    LeE E (α := α) (some (.err a o)) (some (.err b o)) :=
  fun r hr => by cases hr; exact ⟨_, rfl, .err o h⟩

theorem err_leCE {α : Type} {a b : Error} (h : E a b) (st : σ) (o : Nat) :
    LeCE E (α := α) (some (.err a st o)) (some (.err b st o)) :=
  fun r hr => by cases hr; exact ⟨_, rfl, .err st o h⟩

/-! ## Matching -/

section
variable {K : List ι → Nat → Prop} {mt mt' : List ι → Pat ι β → Nat → Option (Res Span)}

/-- A condition looks only at whether its pattern matches. -/
theorem check_leK (hK0 : ∀ d o d', origAt d o = .ok d' → K d' 0)
    (h : ∀ d p p' o, R p p' → K d o → LeK E (K d) (mt d p o) (mt' d p' o)) (d : List ι) (o : Nat)
    {c c' : Cond ι β} (hc : SameCond R c c') (pr : Nat × ι) :
    Le (check mt d o c pr) (check mt' d o c' pr) := by
  cases hc with
  | empty => exact Le.refl _
  | fn f => exact Le.refl _
  | @regex p p' hp =>
    unfold check
    simp only
    cases hor : origAt d (o + pr.1) with
    | err e => exact Le.refl _
    | panic => exact Le.refl _
    | ok d' =>
      simp only
      intro x hx
      cases hm : mt d' p 0 with
      | none => simp [hm] at hx
      | some v =>
        obtain ⟨v', hv', hs⟩ := (h _ _ _ _ hp (hK0 _ _ _ hor)).1 _ hm
        rw [hm] at hx
        rw [hv']
        cases hs <;> exact hx

theorem testItem_leK (hK0 : ∀ d o d', origAt d o = .ok d' → K d' 0)
    (h : ∀ d p p' o, R p p' → K d o → LeK E (K d) (mt d p o) (mt' d p' o)) (d : List ι) (o : Nat)
    (u : Neu ι) {c c' : Cond ι β} (hc : SameCond R c c') (pr : Nat × ι) :
    Le (testItem mt d o u c pr) (testItem mt' d o u c' pr) := by
  unfold testItem
  exact ite_le (check_leK hK0 h _ _ hc _) (Le.refl _)

end

section
variable {K : Nat → Prop} {mt mt' : Pat ι β → Nat → Option (Res Span)} (hE : ∀ e, E e e)
include hE

theorem choiceLoop_leK (h : ∀ p p' o, R p p' → K o → LeK E K (mt p o) (mt' p' o)) (e : Error) (beg : Nat)
    {l l' : List (Pat ι β × Option (Val β))} (hl : SameItems R l l') (hb : K beg) (o : Nat) (ho : K o) :
    LeE E (choiceLoop mt e beg l o) (choiceLoop mt' e beg l' o) := by
  induction hl generalizing o with
  | nil => exact .of_le hE (Le.refl _)
  | cons v hp _ ih =>
    simp only [choiceLoop]
    exact caseR_leK (h _ _ _ hp ho) (fun _ _ _ => .of_le hE (Le.refl _)) (fun _ _ _ _ => ih _ hb)

theorem ltmLoop_leK (h : ∀ p p' o, R p p' → K o → LeK E K (mt p o) (mt' p' o)) (e : Error) (beg : Nat)
    {l l' : List (Pat ι β × Option (Val β))} (hl : SameItems R l l') (hb : K beg) (best : Option Span) (o : Nat) :
    LeE E (ltmLoop mt e beg l best o) (ltmLoop mt' e beg l' best o) := by
  induction hl generalizing best o with
  | nil => cases best <;> exact .of_le hE (Le.refl _)
  | cons v hp _ ih =>
    simp only [ltmLoop]
    exact caseR_leK (h _ _ _ hp hb) (fun _ _ _ => ih _ _) (fun _ _ _ _ => ih _ _)

theorem repLoop_leK (h : ∀ p p' o, R p p' → K o → LeK E K (mt p o) (mt' p' o)) {p p' : Pat ι β} (hp : R p p')
    {more : Nat → Bool} {fin : Nat → Span → Nat → Option (Res Span)} (n cnt : Nat) (t : Span)
    (o : Nat) (ho : K o) : LeE E (repLoop mt p more fin n cnt t o) (repLoop mt' p' more fin n cnt t o) := by
  induction n generalizing cnt t o with
  | zero => exact .none
  | succ n ih =>
    simp only [repLoop]
    exact ite_leE (caseR_leK (h _ _ _ hp ho) (fun _ _ h1 => addK_leE fun _ => ih _ _ _ h1)
      (fun _ _ _ _ => .of_le hE (Le.refl _))) (.of_le hE (Le.refl _))

theorem sepLoop_leK (h : ∀ p p' o, R p p' → K o → LeK E K (mt p o) (mt' p' o)) {p p' s s' : Pat ι β}
    (hp : R p p') (hs : R s s') {skip : Bool} {more : Nat → Bool}
    {fin : Nat → Span → Nat → Option (Res Span)} (n cnt : Nat) (t : Span) (o : Nat) (ho : K o) :
    LeE E (sepLoop mt p s skip more fin n cnt t o) (sepLoop mt' p' s' skip more fin n cnt t o) := by
  induction n generalizing cnt t o with
  | zero => exact .none
  | succ n ih =>
    simp only [sepLoop]
    exact ite_leE (caseR_leK (h _ _ _ hp ho) (fun _ _ h1 => caseR_leK (h _ _ _ hs h1)
      (fun _ _ h2 => addK_leE fun _ => addK_leE fun _ => ih _ _ _ h2)
      (fun _ _ _ _ => .of_le hE (Le.refl _))) (fun _ _ _ _ => .of_le hE (Le.refl _)))
      (.of_le hE (Le.refl _))

end

set_option maxHeartbeats 1000000 in
theorem step_leK (hE : ∀ e, E e e) {K : List ι → Nat → Prop} (hK0 : ∀ d o d', origAt d o = .ok d' → K d' 0)
    {mt mt' : List ι → Pat ι β → Nat → Option (Res Span)}
    {pr pr' : Pat ι β → Nat → Option (Res Span)}
    (hm : ∀ d p p' o, R p p' → K d o → LeK E (K d) (mt d p o) (mt' d p' o)) (n : Nat) (d : List ι)
    (hp : ∀ p p' o, R p p' → K d o → LeE E (pr p o) (pr' p' o)) {p p' : Pat ι β}
    (h : SameShape G G' R p p') (hb : BuildsK K p) (o : Nat) (ho : K d o) :
    LeE E (step G n mt pr d p o) (step G' n mt' pr' d p' o) := by
  have r0 {γ : Type} (x : Option γ) : Le x x := Le.refl x
  have r {γ : Type} (x : Option (Res γ)) : LeE E x x := .of_le hE (Le.refl x)
  have hmd := fun p p' o => hm d p p' o
  cases h with
  | empty | fail | start | anchorEnd | consume | consumeAll | lit | native => exact r _
  | once u hc =>
    simp only [step]; unfold onceParse
    refine .of_le hE (caseO_le (r0 _) (fun it => remK_le fun _ => ?_) (fun _ => r0 _))
    cases it with
    | nil => exact r0 _
    | cons _ _ => exact caseO_le (testItem_leK hK0 hm _ _ _ hc _) (fun _ => r0 _) (fun _ => r0 _)
  | optU u hc =>
    simp only [step]; unfold optUParse
    refine .of_le hE (remK_le fun _ => caseO_le (r0 _) (fun it => ?_) (fun _ => r0 _))
    cases it with
    | nil => exact r0 _
    | cons _ _ => exact caseO_le (testItem_leK hK0 hm _ _ _ hc _) (fun _ => r0 _) (fun _ => r0 _)
  | many0 u hc =>
    simp only [step]; unfold many0Parse
    exact .of_le hE (remK_le fun _ => caseO_le (r0 _) (fun it =>
      caseO_le (scan_le (testItem_leK hK0 hm _ _ _ hc) _ _ _ _) (fun _ => r0 _) (fun _ => r0 _))
      (fun _ => r0 _))
  | many1 u hc =>
    simp only [step]; unfold many1Parse
    exact .of_le hE (caseO_le (r0 _) (fun it => remK_le fun _ =>
      caseO_le (scan_le (testItem_leK hK0 hm _ _ _ hc) _ _ _ _) (fun _ => r0 _) (fun _ => r0 _))
      (fun _ => r0 _))
  | between m k u hc =>
    simp only [step]; unfold betweenParse
    exact .of_le hE (caseO_le (r0 _) (fun it => remK_le fun _ => ite_le
      (caseO_le (scan_le (testItem_leK hK0 hm _ _ _ hc) _ _ _ _) (fun _ => r0 _) (fun _ => r0 _)) (r0 _))
      (fun _ => r0 _))
  | times rg u hc =>
    simp only [step]; unfold timesParse
    exact .of_le hE (caseO_le (r0 _) (fun it => remK_le fun _ => ite_le
      (caseO_le (scan_le (testItem_leK hK0 hm _ _ _ hc) _ _ _ _) (fun _ => r0 _) (fun _ => r0 _)) (r0 _))
      (fun _ => r0 _))
  | thenU u v hc =>
    simp only [step]; unfold thenUParse
    refine .of_le hE (caseO_le (r0 _) (fun it => remK_le fun _ => ite_le ?_ (r0 _)) (fun _ => r0 _))
    match it with
    | [] => exact r0 _
    | [_] => exact r0 _
    | fst :: snd :: it' =>
      exact caseO_le (testItem_leK hK0 hm _ _ _ hc _) (fun _ => ite_le
        (caseO_le (testItem_leK hK0 hm _ _ _ hc _) (fun _ => r0 _) (fun _ => r0 _)) (r0 _)) (fun _ => r0 _)
  | assert v h => exact caseR_leK (hm _ _ _ _ h ho) (fun _ _ _ => r _) (fun _ _ _ _ => r _)
  | thn h1 h2 | pre h1 h2 | suf h1 h2 =>
    exact caseR_leK (hm _ _ _ _ h1 ho) (fun _ _ k1 => caseR_leK (hm _ _ _ _ h2 k1) (fun _ _ _ => r _)
      (fun _ _ _ he => err_leE he _)) (fun _ _ _ he => err_leE he _)
  | ifThen h1 h2 h3 =>
    exact caseR_leK (hm _ _ _ _ h1 ho) (fun _ _ k1 => caseR_leK (hm _ _ _ _ h2 k1)
      (fun _ _ k2 => addK_leE fun _ => caseR_leK (hm _ _ _ _ h3 k2) (fun _ _ _ => r _) (fun _ _ _ he => err_leE he _))
      (fun _ _ _ _ => r _)) (fun _ _ _ he => err_leE he _)
  | enclose h1 h2 h3 =>
    exact caseR_leK (hm _ _ _ _ h1 ho) (fun _ _ k1 => caseR_leK (hm _ _ _ _ h2 k1)
      (fun _ _ k2 => addK_leE fun _ => caseR_leK (hm _ _ _ _ h3 k2) (fun _ _ _ => r _) (fun _ _ _ he => err_leE he _))
      (fun _ _ _ he => err_leE he _)) (fun _ _ _ he => err_leE he _)
  | sepOnce h1 h2 h3 =>
    exact caseR_leK (hm _ _ _ _ h1 ho) (fun _ _ k1 => addK_leE fun _ => caseR_leK (hm _ _ _ _ h2 k1)
      (fun _ _ k2 => addK_leE fun _ => caseR_leK (hm _ _ _ _ h3 k2) (fun _ _ _ => r _) (fun _ _ _ he => err_leE he _))
      (fun _ _ _ he => err_leE he _)) (fun _ _ _ he => err_leE he _)
  | or h1 h2 =>
    exact caseR_leK (hm _ _ _ _ h1 ho) (fun _ _ _ => r _) (fun _ _ _ _ => caseR_leK (hm _ _ _ _ h2 ho)
      (fun _ _ _ => r _) (fun _ _ _ he => err_leE he _))
  | longest h1 h2 =>
    exact caseR_leK (hm _ _ _ _ h1 ho) (fun _ _ _ => caseR_leK (hm _ _ _ _ h2 ho)
      (fun _ _ _ => r _) (fun _ _ _ _ => r _)) (fun _ _ _ _ => caseR_leK (hm _ _ _ _ h2 ho)
      (fun _ _ _ => r _) (fun _ _ _ he => err_leE he _))
  | opt h => exact caseR_leK (hm _ _ _ _ h ho) (fun _ _ _ => r _) (fun _ _ _ _ => r _)
  | choice e hl => exact choiceLoop_leK hE hmd _ _ hl ho _ ho
  | ltm e hl => exact ltmLoop_leK hE hmd _ _ hl ho _ _
  | rep rg h => exact repLoop_leK hE hmd h _ _ _ _ ho
  | rep2 m k h => exact repLoop_leK hE hmd h _ _ _ _ ho
  | collect m h => exact repLoop_leK hE hmd h _ _ _ _ ho
  | sep k m h h' => exact sepLoop_leK hE hmd h h' _ _ _ _ ho
  | sep2 k m l h h' => exact sepLoop_leK hE hmd h h' _ _ _ _ ho
  | sepCollect k m h h' => exact sepLoop_leK hE hmd h h' _ _ _ _ ho
  | branch t h1 h2 =>
    simp only [step]
    cases t d o with
    | panic => exact r _
    | err e => exact r _
    | ok b =>
      cases b
      · exact caseR_leK (hm _ _ _ _ h2 ho) (fun _ _ _ => r _) (fun _ _ _ he => err_leE he _)
      · exact caseR_leK (hm _ _ _ _ h1 ho) (fun _ _ _ => r _) (fun _ _ _ he => err_leE he _)
  | map f h => exact (hm _ _ _ _ h ho).1
  | pat h => exact (hm _ _ _ _ h ho).1
  | @build _ _ f f' h hf =>
    refine caseR_leK (hm _ _ _ _ h ho) (fun s o1 k1 => ?_) (fun _ _ _ he => err_leE he _)
    have hq := hf d o1 s
    have hk := fun p o' => hb d o1 s p o' k1
    generalize f d o1 s = x at hq hk
    generalize f' d o1 s = y at hq
    cases hq with
    | ok o2 hq =>
      simp only [caseR]
      exact caseR_leK (hm _ _ _ _ hq (hk _ _ rfl)) (fun _ _ _ => r _) (fun _ _ _ he => err_leE he _)
    | err => exact r _
    | panic => exact r _
  | dthen => exact r _
  | unset h1 h2 => simp only [step, h1, h2]; exact r _
  | cell h1 h2 h3 => simp only [step, h1, h2]; exact hp _ _ _ h3 ho

/-! ## Constructing -/

section
variable {K : Nat → Prop} {cn cn' : Pat ι β → σ → Nat → Option (CRes σ (Val β))} (hE : ∀ e, E e e)
include hE

theorem conChoice_leK (h : ∀ p p' st o, R p p' → K o → LeCK E K (cn p st o) (cn' p' st o)) (e : Error)
    (beg : Nat) {l l' : List (Pat ι β × Option (Val β))} (hl : SameItems R l l') (hb : K beg) (st : σ) (o : Nat)
    (ho : K o) : LeCE E (conChoice cn e beg l st o) (conChoice cn' e beg l' st o) := by
  induction hl generalizing st o with
  | nil => exact .of_le hE (Le.refl _)
  | cons v hp _ ih =>
    simp only [conChoice]
    exact caseC_leK (h _ _ _ _ hp ho) (fun _ _ _ _ => .of_le hE (Le.refl _)) (fun _ _ _ _ _ => ih _ _ hb)

theorem conLtm_leK (h : ∀ p p' st o, R p p' → K o → LeCK E K (cn p st o) (cn' p' st o)) (e : Error) (beg : Nat)
    {l l' : List (Pat ι β × Option (Val β))} (hl : SameItems R l l') (hb : K beg) (best : Option (Val β))
    (stop : Nat) (st : σ) (o : Nat) :
    LeCE E (conLtm cn e beg l best stop st o) (conLtm cn' e beg l' best stop st o) := by
  induction hl generalizing best stop st o with
  | nil => cases best <;> exact .of_le hE (Le.refl _)
  | cons v hp _ ih =>
    simp only [conLtm]
    exact caseC_leK (h _ _ _ _ hp hb) (fun _ _ _ _ => ite_leCE (ih _ _ _ _) (ih _ _ _ _))
      (fun _ _ _ _ _ => ih _ _ _ _)

theorem conRep_leK (h : ∀ p p' st o, R p p' → K o → LeCK E K (cn p st o) (cn' p' st o)) {p p' : Pat ι β}
    (hp : R p p') {more room : Nat → Bool}
    {fin : Nat → List (Val β) → σ → Nat → Option (CRes σ (Val β))} (n cnt : Nat)
    (vals : List (Val β)) (st : σ) (o : Nat) (ho : K o) :
    LeCE E (conRep cn p more room fin n cnt vals st o) (conRep cn' p' more room fin n cnt vals st o) := by
  have r {γ : Type} (x : Option (CRes σ γ)) : LeCE E x x := .of_le hE (Le.refl x)
  induction n generalizing cnt vals st o with
  | zero => exact .none
  | succ n ih =>
    simp only [conRep]
    exact ite_leCE (caseC_leK (h _ _ _ _ hp ho) (fun _ _ _ k1 => ite_leCE (ih _ _ _ _ k1) (r _))
      (fun _ _ _ _ _ => r _)) (r _)

variable {ms ms' : Nat → Option (Res Span)}

theorem conSep_leK (h : ∀ p p' st o, R p p' → K o → LeCK E K (cn p st o) (cn' p' st o))
    (hs : ∀ o, K o → LeK E K (ms o) (ms' o)) {p p' : Pat ι β} (hp : R p p') {skip : Bool}
    {more room : Nat → Bool} {fin : Nat → List (Val β) → σ → Nat → Option (CRes σ (Val β))}
    (n cnt : Nat) (vals : List (Val β)) (st : σ) (o : Nat) (ho : K o) :
    LeCE E (conSep cn ms p skip more room fin n cnt vals st o)
      (conSep cn' ms' p' skip more room fin n cnt vals st o) := by
  have r {γ : Type} (x : Option (CRes σ γ)) : LeCE E x x := .of_le hE (Le.refl x)
  induction n generalizing cnt vals st o with
  | zero => exact .none
  | succ n ih =>
    simp only [conSep]
    exact ite_leCE (caseC_leK (h _ _ _ _ hp ho) (fun _ _ _ k1 => caseM_leK (hs _ k1)
      (fun _ _ k2 => ite_leCE (ih _ _ _ _ k2) (r _)) (fun _ _ _ _ _ => r _))
      (fun _ _ _ _ _ => r _)) (r _)

theorem conSepCollect_leK (h : ∀ p p' st o, R p p' → K o → LeCK E K (cn p st o) (cn' p' st o))
    (hs : ∀ o, K o → LeK E K (ms o) (ms' o)) {p p' : Pat ι β} (hp : R p p') {skip : Bool}
    {fin : Nat → List (Val β) → σ → Nat → Option (CRes σ (Val β))} (n : Nat) (ended : Bool)
    (cnt : Nat) (vals : List (Val β)) (st : σ) (o : Nat) (ho : K o) :
    LeCE E (conSepCollect cn ms p skip fin n ended cnt vals st o)
      (conSepCollect cn' ms' p' skip fin n ended cnt vals st o) := by
  have r {γ : Type} (x : Option (CRes σ γ)) : LeCE E x x := .of_le hE (Le.refl x)
  induction n generalizing ended cnt vals st o with
  | zero => exact .none
  | succ n ih =>
    simp only [conSepCollect]
    exact caseC_leK (h _ _ _ _ hp ho) (fun _ _ _ k1 => caseM_leK (hs _ k1)
      (fun _ _ k2 => ite_leCE (r _) (ih _ _ _ _ _ k2))
      (fun _ _ _ k2 _ => ite_leCE (r _) (ite_leCE (ih _ _ _ _ _ k2) (r _))))
      (fun _ _ _ _ _ => r _)

theorem invokeK_leE {H : Handler ι β σ} {d : List ι} {st : σ} {x x' : Option (Res Span)}
    (h : LeE E x x') : LeCE E (invokeK H d st x) (invokeK H d st x') :=
  caseM_leE h (fun _ _ => .of_le hE (Le.refl _)) (fun _ _ _ he => err_leCE he _ _)

end

set_option maxHeartbeats 1000000 in
theorem conStep_leK (hE : ∀ e, E e e) {K : List ι → Nat → Prop} {H : Handler ι β σ}
    {mt mt' : Pat ι β → Nat → Option (Res Span)}
    {leaf leaf' : Option (Res Span)} {cn cn' : Pat ι β → σ → Nat → Option (CRes σ (Val β))} (n : Nat) (d : List ι)
    (hm : ∀ p p' o, R p p' → K d o → LeK E (K d) (mt p o) (mt' p' o)) (hl : LeE E leaf leaf')
    (hc : ∀ p p' st o, R p p' → K d o → LeCK E (K d) (cn p st o) (cn' p' st o))
    {p p' : Pat ι β} (h : SameShape G G' R p p') (hb : BuildsK K p) (st : σ) (o : Nat) (ho : K d o) :
    LeCE E (conStep G H n mt leaf cn d p st o) (conStep G' H n mt' leaf' cn' d p' st o) := by
  have r {γ : Type} (x : Option (CRes σ γ)) : LeCE E x x := .of_le hE (Le.refl x)
  cases h with
  | empty | fail | start | anchorEnd | consume | consumeAll | lit | native | once | optU | many0
  | many1 | between | times | thenU | assert | build => exact invokeK_leE hE hl
  | pat h => exact invokeK_leE hE (hm _ _ _ h ho).1
  | thn h1 h2 =>
    exact caseC_leK (hc _ _ _ _ h1 ho) (fun _ _ _ k1 => caseC_leK (hc _ _ _ _ h2 k1) (fun _ _ _ _ => r _)
      (fun _ _ _ _ he => err_leCE he _ _)) (fun _ _ _ _ he => err_leCE he _ _)
  | ifThen h1 h2 h3 =>
    exact caseC_leK (hc _ _ _ _ h1 ho) (fun _ _ _ k1 => caseM_leK (hm _ _ _ h2 k1)
      (fun _ _ k2 => caseC_leK (hc _ _ _ _ h3 k2) (fun _ _ _ _ => r _) (fun _ _ _ _ he => err_leCE he _ _))
      (fun _ _ _ _ _ => r _)) (fun _ _ _ _ he => err_leCE he _ _)
  | pre h1 h2 =>
    exact caseM_leK (hm _ _ _ h1 ho) (fun _ _ k1 => caseC_leK (hc _ _ _ _ h2 k1) (fun _ _ _ _ => r _)
      (fun _ _ _ _ he => err_leCE he _ _)) (fun _ _ _ _ he => err_leCE he _ _)
  | suf h1 h2 =>
    exact caseC_leK (hc _ _ _ _ h1 ho) (fun _ _ _ k1 => caseM_leK (hm _ _ _ h2 k1) (fun _ _ _ => r _)
      (fun _ _ _ _ he => err_leCE he _ _)) (fun _ _ _ _ he => err_leCE he _ _)
  | enclose h1 h2 h3 =>
    exact caseM_leK (hm _ _ _ h1 ho) (fun _ _ k1 => caseC_leK (hc _ _ _ _ h2 k1)
      (fun _ _ _ k2 => caseM_leK (hm _ _ _ h3 k2) (fun _ _ _ => r _) (fun _ _ _ _ he => err_leCE he _ _))
      (fun _ _ _ _ he => err_leCE he _ _)) (fun _ _ _ _ he => err_leCE he _ _)
  | sepOnce h1 h2 h3 =>
    exact caseC_leK (hc _ _ _ _ h1 ho) (fun _ _ _ k1 => caseM_leK (hm _ _ _ h2 k1)
      (fun _ _ k2 => caseC_leK (hc _ _ _ _ h3 k2) (fun _ _ _ _ => r _) (fun _ _ _ _ he => err_leCE he _ _))
      (fun _ _ _ _ he => err_leCE he _ _)) (fun _ _ _ _ he => err_leCE he _ _)
  | or h1 h2 =>
    exact caseC_leK (hc _ _ _ _ h1 ho) (fun _ _ _ _ => r _) (fun _ _ _ _ _ => caseC_leK (hc _ _ _ _ h2 ho)
      (fun _ _ _ _ => r _) (fun _ _ _ _ he => err_leCE he _ _))
  | longest h1 h2 =>
    exact caseC_leK (hc _ _ _ _ h1 ho) (fun _ _ _ _ => caseC_leK (hc _ _ _ _ h2 ho)
      (fun _ _ _ _ => r _) (fun _ _ _ _ _ => r _)) (fun _ _ _ _ _ => caseC_leK (hc _ _ _ _ h2 ho)
      (fun _ _ _ _ => r _) (fun _ _ _ _ he => err_leCE he _ _))
  | opt h => exact caseC_leK (hc _ _ _ _ h ho) (fun _ _ _ _ => r _) (fun _ _ _ _ _ => r _)
  | choice e hi => exact conChoice_leK hE hc _ _ hi ho _ _ ho
  | ltm e hi => exact conLtm_leK hE hc _ _ hi ho _ _ _ _
  | rep rg h => exact conRep_leK hE hc h _ _ _ _ _ ho
  | rep2 m k h => exact conRep_leK hE hc h _ _ _ _ _ ho
  | collect m h => exact conRep_leK hE hc h _ _ _ _ _ ho
  | sep k m h h' => exact conSep_leK hE hc (fun _ => hm _ _ _ h') h _ _ _ _ _ ho
  | sep2 k m l h h' => exact conSep_leK hE hc (fun _ => hm _ _ _ h') h _ _ _ _ _ ho
  | sepCollect k m h h' => exact conSepCollect_leK hE hc (fun _ => hm _ _ _ h') h _ _ _ _ _ _ ho
  | branch t h1 h2 =>
    simp only [conStep]
    cases t d o with
    | panic => exact r _
    | err e => exact r _
    | ok b =>
      cases b
      · exact caseC_leK (hc _ _ _ _ h2 ho) (fun _ _ _ _ => r _) (fun _ _ _ _ he => err_leCE he _ _)
      · exact caseC_leK (hc _ _ _ _ h1 ho) (fun _ _ _ _ => r _) (fun _ _ _ _ he => err_leCE he _ _)
  | map f h => exact caseC_leK (hc _ _ _ _ h ho) (fun _ _ _ _ => r _) (fun _ _ _ _ he => err_leCE he _ _)
  | @dthen _ _ f f' h hf =>
    refine caseC_leK (hc _ _ _ _ h ho) (fun v st1 o1 k1 => ?_) (fun _ _ _ _ he => err_leCE he _ _)
    have hq := hf d o1 v
    have hk := fun p o' => hb d o1 v p o' k1
    generalize f d o1 v = x at hq hk
    generalize f' d o1 v = y at hq
    cases hq with
    | ok o2 hq =>
      simp only [caseM]
      exact caseC_leK (hc _ _ _ _ hq (hk _ _ rfl)) (fun _ _ _ _ => r _) (fun _ _ _ _ he => err_leCE he _ _)
    | err => exact r _
    | panic => exact r _
  | unset h1 h2 => simp only [conStep, h1, h2]; exact r _
  | cell h1 h2 h3 => simp only [conStep, h1, h2]; exact (hc _ _ _ _ h3 ho).1

/-! ## Without fuel -/

theorem actAlike_iff {pol : Option (Pat ι β)} {p p' : Pat ι β} :
    ActAlike E G pol p p' ↔ ∀ d o, LeE E (parseL G pol d p o) (parseL G pol d p' o) ∧
      LeE (fun a b => E b a) (parseL G pol d p' o) (parseL G pol d p o) := by
  have flip {α : Type} {a b : Res α} : SameRes E a b ↔ SameRes (fun a b => E b a) b a := by
    constructor <;> intro h <;> cases h <;> constructor <;> assumption
  unfold ActAlike
  simp only [parses_iff]
  refine forall_congr' fun d => forall_congr' fun o => and_congr Iff.rfl ?_
  refine forall_congr' fun r => imp_congr_right fun _ => exists_congr fun r' => and_congr Iff.rfl ?_
  exact flip

theorem buildAlike_iff {H : Handler ι β σ} {pol : Option (Pat ι β)} {p p' : Pat ι β} :
    BuildAlike E G H pol p p' ↔ ∀ d st o, LeCE E (conL G H pol d p st o) (conL G H pol d p' st o) ∧
      LeCE (fun a b => E b a) (conL G H pol d p' st o) (conL G H pol d p st o) := by
  have flip {α : Type} {a b : CRes σ α} : SameCRes E a b ↔ SameCRes (fun a b => E b a) b a := by
    constructor <;> intro h <;> cases h <;> constructor <;> assumption
  unfold BuildAlike
  simp only [constructs_iff]
  refine forall_congr' fun d => forall_congr' fun st => forall_congr' fun o => and_congr Iff.rfl ?_
  refine forall_congr' fun r => imp_congr_right fun _ => exists_congr fun r' => and_congr Iff.rfl ?_
  exact flip

theorem matL_leE (hE : ∀ e, E e e) {pol : Option (Pat ι β)} {d : List ι} {p p' : Pat ι β}
    (h : ∀ o, LeE E (parseL G pol d p o) (parseL G pol d p' o)) (o : Nat) :
    LeE E (matL G pol d p o) (matL G pol d p' o) := by
  cases pol with
  | none => exact h o
  | some q =>
    rw [matL_some, matL_some]
    exact caseR_leE (.of_le hE (Le.refl _)) (fun _ _ => h _) (fun _ _ _ he => err_leE he _)

theorem LeK.le_trans {α : Type} {K : Nat → Prop} {x y z : Option (Res α)} (h : Le x y) (h' : LeK E K y z) :
    LeK E K x z := ⟨.le_trans h h'.1, fun r hr => h'.2 r (h r hr)⟩

theorem LeCK.le_trans {α : Type} {K : Nat → Prop} {x y z : Option (CRes σ α)} (h : Le x y) (h' : LeCK E K y z) :
    LeCK E K x z := ⟨.le_trans h h'.1, fun r hr => h'.2 r (h r hr)⟩

theorem inR_true {α : Type} (r : Res α) : InR (fun _ => True) r := by cases r <;> trivial

theorem inC_true {α : Type} (r : CRes σ α) : InC (fun _ => True) r := by cases r <;> trivial

theorem LeE.anywhere {α : Type} {x y : Option (Res α)} (h : LeE E x y) : LeK E (fun _ => True) x y :=
  ⟨h, fun r _ => inR_true r⟩

theorem LeCE.anywhere {α : Type} {x y : Option (CRes σ α)} (h : LeCE E x y) : LeCK E (fun _ => True) x y :=
  ⟨h, fun r _ => inC_true r⟩

theorem buildsK_true (p : Pat ι β) : BuildsK (fun (_ : List ι) _ => True) p := by
  cases p <;> simp [BuildsK]

/-- Skipping keeps the position in `K`. -/
def SkipsK (G : Rules ι β) (K : List ι → Nat → Prop) (pol : Option (Pat ι β)) : Prop :=
  ∀ q, pol = some q → ∀ d o r, K d o → parseL G none d q o = some r → InR (K d) r

theorem matL_leK (hE : ∀ e, E e e) {K : List ι → Nat → Prop} {pol : Option (Pat ι β)} (hq : SkipsK G K pol)
    {d : List ι} {p p' : Pat ι β} (h : ∀ o, K d o → LeK E (K d) (parseL G pol d p o) (parseL G pol d p' o))
    (o : Nat) (ho : K d o) : LeK E (K d) (matL G pol d p o) (matL G pol d p' o) := by
  cases pol with
  | none => exact h o ho
  | some q =>
    rw [matL_some, matL_some]
    have hs : LeK E (K d) (matL G none d q o) (matL G none d q o) :=
      ⟨.of_le hE (Le.refl _), fun r hr => hq q rfl d o r ho hr⟩
    refine ⟨caseR_leK hs (fun _ _ k1 => (h _ k1).1) (fun _ _ _ he => err_leE he _), fun r hr => ?_⟩
    cases hx : matL G none d q o with
    | none => rw [hx] at hr; cases hr
    | some v =>
      have hv := hs.2 v hx
      rw [hx] at hr
      cases v with
      | ok s o1 => exact (h o1 hv).2 r hr
      | err e o1 => cases hr; exact hv
      | panic => cases hr; trivial

/-- One step: patterns of the same shape with components that return the same. -/
theorem parseL_shapeK (hE : ∀ e, E e e) {K : List ι → Nat → Prop} (hK0 : ∀ d o d', origAt d o = .ok d' → K d' 0)
    {pol : Option (Pat ι β)} (hq : SkipsK G K pol)
    (hR : ∀ d p p' o, R p p' → K d o → LeK E (K d) (parseL G pol d p o) (parseL G pol d p' o)) {p p' : Pat ι β}
    (h : SameShape G G R p p') (hb : BuildsK K p) (d : List ι) (o : Nat) (ho : K d o) :
    LeE E (parseL G pol d p o) (parseL G pol d p' o) := by
  intro r hr
  obtain ⟨n, hn⟩ := parses_iff.mpr hr
  cases n with
  | zero => cases hn
  | succ n =>
    have := step_leK (G := G) (G' := G) (R := R) (mt := tryMat G n pol) (mt' := matL G pol)
      (pr := parse G n pol d) (pr' := parseL G pol d) hE hK0
      (fun d p p' o hp ho => .le_trans ((approx_tryMat G pol d p o).le n)
        (matL_leK hE hq (fun o ho => hR d p p' o hp ho) o ho)) n d
      (fun p p' o hp ho => .le_trans ((approx_parse G pol d p o).le n) (hR d p p' o hp ho).1) h hb o ho
    rw [parseL_eq G pol d p' o]
    exact this.trans_le (step_stepL _ _ _ n _ _ _) r hn

theorem parseL_shape (hE : ∀ e, E e e) {pol : Option (Pat ι β)}
    (hR : ∀ d p p' o, R p p' → LeE E (parseL G pol d p o) (parseL G pol d p' o)) {p p' : Pat ι β}
    (h : SameShape G G R p p') (d : List ι) (o : Nat) :
    LeE E (parseL G pol d p o) (parseL G pol d p' o) :=
  parseL_shapeK hE (K := fun _ _ => True) (fun _ _ _ _ => trivial) (fun _ _ _ _ r _ _ => inR_true r)
    (fun d p p' o h _ => (hR d p p' o h).anywhere) h (buildsK_true p) d o trivial

theorem conL_shapeK (hE : ∀ e, E e e) {K : List ι → Nat → Prop} (hK0 : ∀ d o d', origAt d o = .ok d' → K d' 0)
    {H : Handler ι β σ} {pol : Option (Pat ι β)} (hq : SkipsK G K pol)
    (hR : ∀ d p p' o, R p p' → K d o → LeK E (K d) (parseL G pol d p o) (parseL G pol d p' o))
    (hC : ∀ d p p' st o, R p p' → K d o → LeCK E (K d) (conL G H pol d p st o) (conL G H pol d p' st o))
    {p p' : Pat ι β} (hs : ∀ d o r, K d o → parseL G pol d p o = some r → InR (K d) r)
    (h : SameShape G G R p p') (hb : BuildsK K p) (d : List ι) (st : σ) (o : Nat) (ho : K d o) :
    LeCE E (conL G H pol d p st o) (conL G H pol d p' st o) := by
  intro r hr
  obtain ⟨n, hn⟩ := constructs_iff.mpr hr
  cases n with
  | zero => cases hn
  | succ n =>
    have := conStep_leK (G := G) (G' := G) (R := R) (H := H) (mt := tryMat G n pol d)
      (mt' := matL G pol d) (leaf := tryMat G (n + 1) pol d p o) (leaf' := matL G pol d p' o)
      (cn := con G H n pol d) (cn' := conL G H pol d) hE n d
      (fun p p' o hp ho => .le_trans ((approx_tryMat G pol d p o).le n)
        (matL_leK hE hq (fun o ho => hR d p p' o hp ho) o ho))
      (.le_trans ((approx_tryMat G pol d p o).le (n + 1))
        (matL_leK hE hq (fun o ho => ⟨parseL_shapeK hE hK0 hq hR h hb d o ho, fun r hr => hs d o r ho hr⟩) o ho).1)
      (fun p p' st o hp ho => .le_trans ((approx_con G H pol d p st o).le n) (hC d p p' st o hp ho)) h hb st o ho
    rw [conL_eq G H pol d p' st o]
    exact this.trans_le (conStep_conStepL _ _ _ _ _ n _ _ _ _) r hn

theorem conL_shape (hE : ∀ e, E e e) {H : Handler ι β σ} {pol : Option (Pat ι β)}
    (hR : ∀ d p p' o, R p p' → LeE E (parseL G pol d p o) (parseL G pol d p' o))
    (hC : ∀ d p p' st o, R p p' → LeCE E (conL G H pol d p st o) (conL G H pol d p' st o))
    {p p' : Pat ι β} (h : SameShape G G R p p') (d : List ι) (st : σ) (o : Nat) :
    LeCE E (conL G H pol d p st o) (conL G H pol d p' st o) :=
  conL_shapeK hE (K := fun _ _ => True) (fun _ _ _ _ => trivial) (fun _ _ _ _ r _ _ => inR_true r)
    (fun d p p' o h _ => (hR d p p' o h).anywhere) (fun d p p' st o h _ => (hC d p p' st o h).anywhere)
    (fun _ _ r _ _ => inR_true r) h (buildsK_true p) d st o trivial

/-- The patterns in `S` run inside `K` under the rules `G` and so do their components. -/
structure RunsWithin (G : Rules ι β) (pol : Option (Pat ι β)) (K : List ι → Nat → Prop) (S : Pat ι β → Prop) :
    Prop where
  child : ∀ {p q}, S p → Child G q p → S q
  builds : ∀ {p}, S p → BuildsK K p
  stays : ∀ {p}, S p → ∀ d o r, K d o → Parses G pol d p o r → InR (K d) r

theorem runsIn_true (pol : Option (Pat ι β)) : RunsWithin G pol (fun _ _ => True) (fun _ => True) :=
  ⟨fun _ _ => trivial, fun _ => buildsK_true _, fun _ _ _ r _ _ => inR_true r⟩

section
variable {K : List ι → Nat → Prop} {S S0 : Pat ι β → Prop}

theorem tryMat_inR {pol : Option (Pat ι β)} (hS0 : RunsWithin G none K S0) (hS : RunsWithin G pol K S)
    (hq : ∀ q, pol = some q → S0 q) {p : Pat ι β} (hp : S p) (n : Nat) (d : List ι) (o : Nat) (ho : K d o)
    (r : Res Span) (h : tryMat G n pol d p o = some r) : InR (K d) r := by
  have h := runs_iff.mp ⟨n, h⟩
  cases pol with
  | none => exact hS.stays hp d o r ho (parses_iff.mpr h)
  | some q =>
    rw [matL_some] at h
    cases hx : matL G none d q o with
    | none => rw [hx] at h; cases h
    | some v =>
      have hv := hS0.stays (hq q rfl) d o v ho (parses_iff.mpr hx)
      rw [hx] at h
      cases v with
      | ok s o1 => exact hS.stays hp d o1 r hv (parses_iff.mpr h)
      | err e o1 => cases h; exact hv
      | panic => cases h; trivial

/-- Changed rules: every result under `G'` is a result under `G`. -/
theorem parse_rulesK (hE : ∀ e, E e e) (hT : ∀ a b c, E a b → E b c → E a c)
    (hK0 : ∀ d o d', origAt d o = .ok d' → K d' 0) {pol : Option (Pat ι β)}
    (hS0 : RunsWithin G' none K S0) (hS : RunsWithin G' pol K S) (hq : ∀ q, pol = some q → S0 q)
    (h0 : RuleByRule (fun q q' => ∀ d o, K d o → LeE E (parseL G none d q' o) (parseL G none d q o)) G G')
    (hpol : RuleByRule (fun q q' => ∀ d o, K d o → LeE E (parseL G pol d q' o) (parseL G pol d q o)) G G')
    (n : Nat) : ∀ d o, K d o → ∀ p, (S0 p → LeE E (parse G' n none d p o) (parseL G none d p o)) ∧
      (S p → LeE E (parse G' n pol d p o) (parseL G pol d p o)) := by
  induction n with
  | zero => intro d o _ p; exact ⟨fun _ => .none, fun _ => .none⟩
  | succ n ih =>
    have go (pol') (T : Pat ι β → Prop) (hT' : RunsWithin G' pol' K T) (hq' : ∀ q, pol' = some q → S0 q)
        (hrule : RuleByRule (fun q q' => ∀ d o, K d o → LeE E (parseL G pol' d q' o) (parseL G pol' d q o)) G G')
        (ih' : ∀ d o, K d o → ∀ p, T p → LeE E (parse G' n pol' d p o) (parseL G pol' d p o))
        (d : List ι) (o : Nat) (ho : K d o) (p : Pat ι β) (hp : T p) :
        LeE E (parse G' (n + 1) pol' d p o) (parseL G pol' d p o) := by
      have hmat : ∀ d p p' o, (p = p' ∧ T p) → K d o →
          LeK E (K d) (tryMat G' n pol' d p o) (matL G pol' d p' o) := by
        rintro d p _ o ⟨rfl, hp⟩ ho
        refine ⟨?_, tryMat_inR hS0 hT' hq' hp n d o ho⟩
        cases pol' with
        | none => exact ih' d o ho p hp
        | some q =>
          rw [matL_some]
          refine caseR_leK (K := K d) ⟨(ih d o ho q).1 (hq' q rfl), fun r hr => ?_⟩
            (fun _ o1 k1 => ih' d o1 k1 p hp) (fun _ _ _ he => err_leE he _)
          exact hS0.stays (hq' q rfl) d o r ho ⟨n, hr⟩
      by_cases hcell : ∃ i, p = .cell i
      · obtain ⟨i, rfl⟩ := hcell
        rcases hrule i with ⟨h1, h2⟩ | ⟨q, q', h1, h2, h3⟩
        · rw [parseL_cell, h1]
          simp only [parse, step, h2]
          exact .of_le hE (Le.refl _)
        · rw [parseL_cell, h1]
          simp only [parse, step, h2]
          exact LeE.trans hT (ih' d o ho q' (hT'.child hp h2)) (h3 d o ho)
      · rw [parseL_eq]
        refine LeE.trans_le ?_ (step_stepL _ _ _ n _ _ _)
        exact step_leK (R := fun a b => a = b ∧ T a) hE hK0 hmat n d
          (fun p p' o h ho => by obtain ⟨rfl, h⟩ := h; exact ih' d o ho _ h)
          (sameShape_self (fun q hc => ⟨rfl, hT'.child hp hc⟩) (fun i hi => (hcell ⟨i, hi⟩).elim))
          (hT'.builds hp) o ho
    intro d o ho p
    exact ⟨go none S0 hS0 (fun _ h => by cases h) h0 (fun d o ho p hp => (ih d o ho p).1 hp) d o ho p,
      go pol S hS hq hpol (fun d o ho p hp => (ih d o ho p).2 hp) d o ho p⟩

theorem parseL_rulesK (hE : ∀ e, E e e) (hT : ∀ a b c, E a b → E b c → E a c)
    (hK0 : ∀ d o d', origAt d o = .ok d' → K d' 0) {pol : Option (Pat ι β)}
    (hS0 : RunsWithin G' none K S0) (hS : RunsWithin G' pol K S) (hq : ∀ q, pol = some q → S0 q)
    (h0 : RuleByRule (fun q q' => ∀ d o, K d o → LeE E (parseL G none d q' o) (parseL G none d q o)) G G')
    (hpol : RuleByRule (fun q q' => ∀ d o, K d o → LeE E (parseL G pol d q' o) (parseL G pol d q o)) G G')
    (d : List ι) (p : Pat ι β) (hp : S p) (o : Nat) (ho : K d o) :
    LeE E (parseL G' pol d p o) (parseL G pol d p o) := by
  intro r hr
  obtain ⟨n, hn⟩ := parses_iff.mpr hr
  exact (parse_rulesK hE hT hK0 hS0 hS hq h0 hpol n d o ho p).2 hp r hn

theorem parseL_rules (hE : ∀ e, E e e) (hT : ∀ a b c, E a b → E b c → E a c) {pol : Option (Pat ι β)}
    (h0 : RuleByRule (fun q q' => ∀ d o, LeE E (parseL G none d q' o) (parseL G none d q o)) G G')
    (hpol : RuleByRule (fun q q' => ∀ d o, LeE E (parseL G pol d q' o) (parseL G pol d q o)) G G')
    (d : List ι) (p : Pat ι β) (o : Nat) : LeE E (parseL G' pol d p o) (parseL G pol d p o) := by
  have weaken (pol) (h : RuleByRule (fun q q' => ∀ d o, LeE E (parseL G pol d q' o) (parseL G pol d q o)) G G') :
      RuleByRule (fun q q' => ∀ d o, True → LeE E (parseL G pol d q' o) (parseL G pol d q o)) G G' := by
    intro i
    rcases h i with h | ⟨q, q', h1, h2, h3⟩
    · exact .inl h
    · exact .inr ⟨q, q', h1, h2, fun d o _ => h3 d o⟩
  exact parseL_rulesK hE hT (K := fun _ _ => True) (fun _ _ _ _ => trivial) (runsIn_true none) (runsIn_true pol)
    (fun _ _ => trivial) (weaken _ h0) (weaken _ hpol) d p trivial o trivial

theorem conL_rulesK (hE : ∀ e, E e e) (hT : ∀ a b c, E a b → E b c → E a c)
    (hK0 : ∀ d o d', origAt d o = .ok d' → K d' 0) {H : Handler ι β σ} {pol : Option (Pat ι β)}
    (hS0 : RunsWithin G' none K S0) (hS : RunsWithin G' pol K S) (hq : ∀ q, pol = some q → S0 q)
    (hC : ∀ p, S p → ∀ d st o r, K d o → Constructs G' H pol d p st o r → InC (K d) r)
    (h0 : RuleByRule (fun q q' => ∀ d o, K d o → LeE E (parseL G none d q' o) (parseL G none d q o)) G G')
    (hpol : RuleByRule (fun q q' => ∀ d o, K d o → LeE E (parseL G pol d q' o) (parseL G pol d q o)) G G')
    (hcon : RuleByRule (fun q q' => ∀ d st o, K d o →
      LeCE E (conL G H pol d q' st o) (conL G H pol d q st o)) G G')
    (d : List ι) (p : Pat ι β) (hp : S p) (st : σ) (o : Nat) (ho : K d o) :
    LeCE E (conL G' H pol d p st o) (conL G H pol d p st o) := by
  intro r hr
  obtain ⟨n, hn⟩ := constructs_iff.mpr hr
  clear hr
  have hmat : ∀ n p o, S p → K d o → LeK E (K d) (tryMat G' n pol d p o) (matL G pol d p o) := by
    intro n p o hp ho
    refine ⟨?_, tryMat_inR hS0 hS hq hp n d o ho⟩
    cases pol with
    | none => exact (parse_rulesK hE hT hK0 hS0 hS hq h0 hpol n d o ho p).2 hp
    | some q =>
      rw [matL_some]
      refine caseR_leK (K := K d) ⟨(parse_rulesK hE hT hK0 hS0 hS hq h0 hpol n d o ho q).1 (hq q rfl), fun r hr => ?_⟩
        (fun _ o1 k1 => (parse_rulesK hE hT hK0 hS0 hS hq h0 hpol n d o1 k1 p).2 hp)
        (fun _ _ _ he => err_leE he _)
      exact hS0.stays (hq q rfl) d o r ho ⟨n, hr⟩
  have key : ∀ n p st o, S p → K d o → LeCE E (con G' H n pol d p st o) (conL G H pol d p st o) := by
    intro n
    induction n with
    | zero => intro p st o _ _; exact .none
    | succ n ih =>
      intro p st o hp ho
      by_cases hcell : ∃ i, p = .cell i
      · obtain ⟨i, rfl⟩ := hcell
        rcases hcon i with ⟨h1, h2⟩ | ⟨q, q', h1, h2, h3⟩
        · rw [conL_cell, h1]
          simp only [con, conStep, h2]
          exact .of_le hE (Le.refl _)
        · rw [conL_cell, h1]
          simp only [con, conStep, h2]
          exact LeCE.trans hT (ih q' st o (hS.child hp h2) ho) (h3 d st o ho)
      · rw [conL_eq]
        refine LeCE.trans_le ?_ (conStep_conStepL _ _ _ _ _ n _ _ _ _)
        exact conStep_leK (R := fun a b => a = b ∧ S a) (K := K) hE n d
          (fun p p' o h ho => by obtain ⟨rfl, h⟩ := h; exact hmat n _ o h ho)
          (hmat (n + 1) p o hp ho).1
          (fun p p' st o h ho => by
            obtain ⟨rfl, h⟩ := h
            exact ⟨ih _ _ _ h ho, fun r hr => hC _ h d st o r ho ⟨n, hr⟩⟩)
          (sameShape_self (fun q hc => ⟨rfl, hS.child hp hc⟩) (fun i hi => (hcell ⟨i, hi⟩).elim))
          (hS.builds hp) st o ho
  exact key n p st o hp ho r hn

theorem conL_rules (hE : ∀ e, E e e) (hT : ∀ a b c, E a b → E b c → E a c) {H : Handler ι β σ}
    {pol : Option (Pat ι β)}
    (h0 : RuleByRule (fun q q' => ∀ d o, LeE E (parseL G none d q' o) (parseL G none d q o)) G G')
    (hpol : RuleByRule (fun q q' => ∀ d o, LeE E (parseL G pol d q' o) (parseL G pol d q o)) G G')
    (hcon : RuleByRule (fun q q' => ∀ d st o, LeCE E (conL G H pol d q' st o) (conL G H pol d q st o)) G G')
    (d : List ι) (p : Pat ι β) (st : σ) (o : Nat) :
    LeCE E (conL G' H pol d p st o) (conL G H pol d p st o) := by
  have weaken {P Q : Pat ι β → Pat ι β → Prop} (hPQ : ∀ q q', P q q' → Q q q') (h : RuleByRule P G G') :
      RuleByRule Q G G' := by
    intro i
    rcases h i with h | ⟨q, q', h1, h2, h3⟩
    · exact .inl h
    · exact .inr ⟨q, q', h1, h2, hPQ _ _ h3⟩
  exact conL_rulesK hE hT (K := fun _ _ => True) (fun _ _ _ _ => trivial) (runsIn_true none) (runsIn_true pol)
    (fun _ _ => trivial) (fun _ _ _ _ _ r _ _ => inC_true r) (weaken (fun _ _ h d o _ => h d o) h0)
    (weaken (fun _ _ h d o _ => h d o) hpol) (weaken (fun _ _ h d st o _ => h d st o) hcon)
    d p trivial st o trivial

end

end Neure
