import Verif.CtorInv
import Verif.DataLemmas
/-!
# Invariants of `construct`: restoring, text, handler calls (for C20, C46)
-/

namespace Neure

set_option linter.unusedSectionVars false

variable {ι β σ : Type} [Item ι] {G : Rules ι β} {H : Handler ι β σ} {d : List ι}
  {pol : Option (Pat ι β)}

theorem sat_caseC {α γ : Type} {c : Option (CRes σ α)} {k : α → σ → Nat → Option (CRes σ γ)}
    {kE : Error → σ → Nat → Option (CRes σ γ)} {P : CRes σ α → Prop} {Q : CRes σ γ → Prop}
    (h : Sat c P) (hp : Q .panic) (hk : ∀ a st o, P (.ok a st o) → Sat (k a st o) Q)
    (hE : ∀ e st o, P (.err e st o) → Sat (kE e st o) Q) : Sat (caseC c k kE) Q := by
  rcases c with _ | ⟨a, st, o⟩ | ⟨e, st, o⟩ | _
  · exact Sat.none
  · exact hk a st o (h _ rfl)
  · exact hE e st o (h _ rfl)
  · exact Sat.some hp

theorem sat_caseM {α γ : Type} {c : Option (Res α)} {k : α → Nat → Option (CRes σ γ)}
    {kE : Error → Nat → Option (CRes σ γ)} {P : Res α → Prop} {Q : CRes σ γ → Prop}
    (h : Sat c P) (hp : Q .panic) (hk : ∀ a o, P (.ok a o) → Sat (k a o) Q)
    (hE : ∀ e o, P (.err e o) → Sat (kE e o) Q) : Sat (caseM c k kE) Q := by
  rcases c with _ | ⟨a, o⟩ | ⟨e, o⟩ | _
  · exact Sat.none
  · exact hk a o (h _ rfl)
  · exact hE e o (h _ rfl)
  · exact Sat.some hp

theorem sat_caseT {α γ : Type} {c : Out α} {k : α → Option (CRes σ γ)}
    {kE : Error → Option (CRes σ γ)} {Q : CRes σ γ → Prop}
    (hp : Q .panic) (hk : ∀ a, c = .ok a → Sat (k a) Q)
    (hE : ∀ e, c = .err e → Sat (kE e) Q) : Sat (caseT c k kE) Q := by
  cases c with
  | panic => exact Sat.some hp
  | ok a => exact hk a rfl
  | err e => exact hE e rfl

theorem sat_conRep {cn : Pat ι β → σ → Nat → Option (CRes σ (Val β))} {p : Pat ι β}
    {more room : Nat → Bool} {fin : Nat → List (Val β) → σ → Nat → Option (CRes σ (Val β))}
    {Q : CRes σ (Val β) → Prop} (I : List (Val β) → σ → Nat → Prop) {P : σ → Nat → CRes σ (Val β) → Prop}
    (hp : ∀ vals st o, I vals st o → Sat (cn p st o) (P st o)) (hpan : Q .panic)
    (hstep : ∀ vals st o v st1 o1, I vals st o → P st o (.ok v st1 o1) → I (vals ++ [v]) st1 o1)
    (hfin : ∀ cnt vals st o, I vals st o → Sat (fin cnt vals st o) Q)
    (hend : ∀ cnt vals st o e st1 o1, I vals st o → P st o (.err e st1 o1) →
      Sat (fin cnt vals st1 o1) Q) :
    ∀ fuel cnt vals st o, I vals st o → Sat (conRep cn p more room fin fuel cnt vals st o) Q := by
  intro fuel
  induction fuel with
  | zero => intro _ _ _ _ _; exact Sat.none
  | succ n ih =>
    intro cnt vals st o hI
    simp only [conRep]
    split
    · refine sat_caseC (hp vals st o hI) hpan (fun v st1 o1 h => ?_) (fun e st1 o1 h => ?_)
      · split
        · exact ih _ _ _ _ (hstep _ _ _ _ _ _ hI h)
        · exact Sat.some hpan
      · exact hend _ _ _ _ _ _ _ hI h
    · exact hfin _ _ _ _ hI

theorem sat_conChoice {cn : Pat ι β → σ → Nat → Option (CRes σ (Val β))} {e : Error} {beg : Nat}
    {Q : CRes σ (Val β) → Prop} {I : σ → Prop} {P : σ → CRes σ (Val β) → Prop}
    (items : List (Pat ι β × Option (Val β)))
    (hp : ∀ it ∈ items, ∀ st, I st → Sat (cn it.1 st beg) (P st)) (hpan : Q .panic)
    (hok : ∀ it ∈ items, ∀ st v st1 o1, I st → P st (.ok v st1 o1) → Q (.ok (tagged it.2 v) st1 o1))
    (herr : ∀ st e st1 o1, I st → P st (.err e st1 o1) → I st1)
    (hend : ∀ st, I st → Q (.err e st beg)) :
    ∀ st, I st → Sat (conChoice cn e beg items st beg) Q := by
  induction items with
  | nil => intro st hI; exact Sat.some (hend st hI)
  | cons it items ih =>
    intro st hI
    simp only [conChoice]
    refine sat_caseC (hp it (by simp) st hI) hpan (fun v st1 o1 h => ?_) (fun e st1 o1 h => ?_)
    · exact Sat.some (hok it (by simp) _ _ _ _ hI h)
    · exact ih (fun it h => hp it (by simp [h])) (fun it h => hok it (by simp [h])) _
        (herr _ _ _ _ hI h)

/-! ## Restoring the position -/

/-- A failure leaves the offset at `o`. -/
def CErrAt (o : Nat) : CRes σ (Val β) → Prop
  | .err _ _ o' => o' = o
  | _ => True

theorem csat_true {α : Type} (r : Option α) : Sat r fun _ => True := fun _ _ => trivial

theorem conFinish_at {ok : Nat → Bool} {e : Error} {beg cnt : Nat} {w : List (Val β) → Val β}
    {vals : List (Val β)} {st : σ} {o : Nat} :
    Sat (conFinish ok e beg w cnt vals st o) (CErrAt beg) := by
  unfold conFinish; split
  · exact Sat.some trivial
  · exact Sat.some rfl

theorem conRep_at {cn : Pat ι β → σ → Nat → Option (CRes σ (Val β))} {p : Pat ι β}
    {more room : Nat → Bool} {ok : Nat → Bool} {e : Error} {beg : Nat} {w : List (Val β) → Val β}
    (fuel cnt : Nat) (vals : List (Val β)) (st : σ) (o : Nat) :
    Sat (conRep cn p more room (conFinish ok e beg w) fuel cnt vals st o) (CErrAt beg) :=
  sat_conRep (fun _ _ _ => True) (P := fun _ _ _ => True) (fun _ _ _ _ => csat_true _) trivial
    (fun _ _ _ _ _ _ _ _ => trivial) (fun _ _ _ _ _ => conFinish_at)
    (fun _ _ _ _ _ _ _ _ _ => conFinish_at) _ _ _ _ _ trivial

theorem conSep_at {cn : Pat ι β → σ → Nat → Option (CRes σ (Val β))} {p : Pat ι β}
    {ms : Nat → Option (Res Span)} {skip : Bool}
    {more room : Nat → Bool} {ok : Nat → Bool} {e : Error} {beg : Nat} {w : List (Val β) → Val β}
    (fuel cnt : Nat) (vals : List (Val β)) (st : σ) (o : Nat) :
    Sat (conSep cn ms p skip more room (conFinish ok e beg w) fuel cnt vals st o) (CErrAt beg) := by
  induction fuel generalizing cnt vals st o with
  | zero => exact Sat.none
  | succ n ih =>
    simp only [conSep]
    split
    · refine sat_caseC (csat_true _) trivial (fun v st1 o1 _ => sat_caseM (csat_true _) trivial
        (fun _ _ _ => ?_) (fun _ _ _ => ?_)) (fun _ _ _ _ => conFinish_at)
      · split
        · exact ih _ _ _ _
        · exact Sat.some trivial
      · split
        · split
          · exact conFinish_at
          · exact Sat.some trivial
        · exact conFinish_at
    · exact conFinish_at

theorem conSepCollect_at {cn : Pat ι β → σ → Nat → Option (CRes σ (Val β))} {p : Pat ι β}
    {ms : Nat → Option (Res Span)} {skip : Bool} {ok : Nat → Bool} {e : Error} {beg : Nat}
    {w : List (Val β) → Val β} (fuel : Nat) (ended : Bool) (cnt : Nat) (vals : List (Val β)) (st : σ)
    (o : Nat) :
    Sat (conSepCollect cn ms p skip (conFinish ok e beg w) fuel ended cnt vals st o) (CErrAt beg) := by
  induction fuel generalizing ended cnt vals st o with
  | zero => exact Sat.none
  | succ n ih =>
    simp only [conSepCollect]
    refine sat_caseC (csat_true _) trivial (fun v st1 o1 _ => sat_caseM (csat_true _) trivial
      (fun _ _ _ => ?_) (fun _ _ _ => ?_)) (fun _ _ _ _ => conFinish_at)
    · split
      · exact conFinish_at
      · exact ih _ _ _ _ _
    · split
      · exact conFinish_at
      · split
        · exact ih _ _ _ _ _
        · exact conFinish_at

/-- Guarded constructors restore, whatever their parts, the handler and the
policy do. -/
theorem guarded_at (n : Nat) (p : Pat ι β) (hp : Guarded p) (st : σ) (o : Nat) :
    Sat (con G H n pol d p st o) (CErrAt o) := by
  cases n with
  | zero => exact Sat.none
  | succ n =>
    have tt : ∀ {r : Option (CRes σ (Val β))}, Sat r fun _ => True := fun {r} => csat_true r
    have tm : ∀ {r : Option (Res Span)}, Sat r fun _ => True := fun {r} => csat_true r
    simp only [con]
    unfold conStep
    cases p with
    | thn a b =>
      exact sat_caseC tt trivial (fun _ _ _ _ => sat_caseC tt trivial (fun _ _ _ _ => Sat.some trivial)
        (fun _ _ _ _ => Sat.some rfl)) (fun _ _ _ _ => Sat.some rfl)
    | ifThen a t b =>
      exact sat_caseC tt trivial (fun _ _ _ _ => sat_caseM tm trivial
        (fun _ _ _ => sat_caseC tt trivial (fun _ _ _ _ => Sat.some trivial)
          (fun _ _ _ _ => Sat.some rfl)) (fun _ _ _ => Sat.some trivial)) (fun _ _ _ _ => Sat.some rfl)
    | pre a b =>
      exact sat_caseM tm trivial (fun _ _ _ => sat_caseC tt trivial (fun _ _ _ _ => Sat.some trivial)
        (fun _ _ _ _ => Sat.some rfl)) (fun _ _ _ => Sat.some rfl)
    | suf a b =>
      exact sat_caseC tt trivial (fun _ _ _ _ => sat_caseM tm trivial (fun _ _ _ => Sat.some trivial)
        (fun _ _ _ => Sat.some rfl)) (fun _ _ _ _ => Sat.some rfl)
    | enclose a b c =>
      exact sat_caseM tm trivial (fun _ _ _ => sat_caseC tt trivial
        (fun _ _ _ _ => sat_caseM tm trivial (fun _ _ _ => Sat.some trivial)
          (fun _ _ _ => Sat.some rfl)) (fun _ _ _ _ => Sat.some rfl)) (fun _ _ _ => Sat.some rfl)
    | sepOnce a b c =>
      exact sat_caseC tt trivial (fun _ _ _ _ => sat_caseM tm trivial
        (fun _ _ _ => sat_caseC tt trivial (fun _ _ _ _ => Sat.some trivial)
          (fun _ _ _ _ => Sat.some rfl)) (fun _ _ _ => Sat.some rfl)) (fun _ _ _ _ => Sat.some rfl)
    | or a b =>
      exact sat_caseC tt trivial (fun _ _ _ _ => Sat.some trivial)
        (fun _ _ _ _ => sat_caseC tt trivial (fun _ _ _ _ => Sat.some trivial)
          (fun _ _ _ _ => Sat.some rfl))
    | longest a b =>
      refine sat_caseC tt trivial
        (fun _ _ _ _ => sat_caseC tt trivial (fun _ _ _ _ => ?_) (fun _ _ _ _ => Sat.some trivial))
        (fun _ _ _ _ => sat_caseC tt trivial (fun _ _ _ _ => Sat.some trivial)
          (fun _ _ _ _ => Sat.some rfl))
      split <;> exact Sat.some trivial
    | choice e items =>
      exact sat_conChoice (I := fun _ => True) (P := fun _ _ => True) items (fun _ _ _ _ => csat_true _)
        trivial (fun _ _ _ _ _ _ _ _ => trivial) (fun _ _ _ _ _ _ => trivial) (fun _ _ => rfl) st trivial
    | rep q r => exact conRep_at _ _ _ _ _
    | rep2 q a b => exact conRep_at _ _ _ _ _
    | collect q a => exact conRep_at _ _ _ _ _
    | sep q s k a => exact conSep_at _ _ _ _ _
    | sep2 q s k a b => exact conSep_at _ _ _ _ _
    | sepCollect q s k a => exact conSepCollect_at _ _ _ _ _ _
    | branch t a b =>
      exact sat_caseT trivial (fun _ _ => sat_caseC tt trivial (fun _ _ _ _ => Sat.some trivial)
        (fun _ _ _ _ => Sat.some rfl)) (fun _ _ => Sat.some rfl)
    | _ => exact hp.elim

theorem invoke_at {st : σ} {m : Option (Res Span)} {o : Nat} (hH : H.Total) (hm : Sat m (ErrAt o)) :
    Sat (invokeK H d st m) (CErrAt o) := by
  refine sat_caseM hm trivial (fun s o' _ => ?_) (fun e o' h => Sat.some h)
  obtain ⟨b, st', h⟩ := hH d o' s st
  rw [h]; exact Sat.some trivial

/-- On a plain context everything restores if user code does not fail. -/
theorem restores_at (hH : H.Total) (n : Nat) (p : Pat ι β) (hp : CAll G (CRestores G) p) (st : σ)
    (o : Nat) : Sat (con G H n none d p st o) (CErrAt o) := by
  induction n generalizing p st o with
  | zero => exact Sat.none
  | succ n ih =>
    have hl := hp.self
    have leaf : All G Restores p → Sat (invokeK H d st (parse G (n + 1) none d p o)) (CErrAt o) :=
      fun h => invoke_at hH (keeps_inv G (n + 1) d p o h)
    cases p
    case empty => exact leaf (hl trivial)
    case fail => exact leaf (hl trivial)
    case start => exact leaf (hl trivial)
    case anchorEnd => exact leaf (hl trivial)
    case consume => exact leaf (hl trivial)
    case consumeAll => exact leaf (hl trivial)
    case lit => exact leaf (hl trivial)
    case native => exact leaf (hl trivial)
    case once => exact leaf (hl trivial)
    case many1 => exact leaf (hl trivial)
    case optU => exact leaf (hl trivial)
    case many0 => exact leaf (hl trivial)
    case between => exact leaf (hl trivial)
    case times => exact leaf (hl trivial)
    case thenU => exact leaf (hl trivial)
    case assert => exact leaf (hl trivial)
    case build => exact leaf (hl trivial)
    case pat => exact leaf (hl trivial)
    case ltm => exact hl.elim
    case opt q =>
      exact sat_caseC (csat_true _) trivial (fun _ _ _ _ => Sat.some trivial)
        (fun _ _ _ _ => Sat.some trivial)
    case map q f =>
      exact sat_caseC (ih q (hp.child rfl) st o) trivial
        (fun v st1 o1 _ => sat_caseT trivial (fun _ _ => Sat.some trivial)
          (fun e h => absurd h (hl v e))) (fun _ _ _ h => Sat.some h)
    case dthen q f =>
      exact sat_caseC (csat_true _) trivial
        (fun v st1 o1 _ => sat_caseM (P := fun r => f d o1 v = r) (Sat.some rfl) trivial
          (fun _ _ _ => sat_caseC (csat_true _) trivial (fun _ _ _ _ => Sat.some trivial)
            (fun _ _ _ _ => Sat.some rfl))
          (fun e o2 h => absurd h (hl d o1 v e o2))) (fun _ _ _ _ => Sat.some rfl)
    case cell i =>
      simp only [con, conStep]
      cases hg : G i with
      | none => exact Sat.some rfl
      | some q => exact ih q (hp.child hg) st o
    all_goals (refine guarded_at _ _ ?_ _ _; trivial)

/-! ## Text between positions -/

theorem TextBetween.nil {o : Nat} (h : Valid d o) : TextBetween d o [] o := by
  obtain ⟨pre, post, rfl, rfl⟩ := h
  exact ⟨pre, post, by simp, rfl, by simp⟩

theorem TextBetween.left {o o' : Nat} {l : List ι} (h : TextBetween d o l o') : Valid d o := by
  obtain ⟨pre, post, rfl, rfl, rfl⟩ := h
  exact ⟨pre, l ++ post, by simp, rfl⟩

theorem TextBetween.right {o o' : Nat} {l : List ι} (h : TextBetween d o l o') : Valid d o' := by
  obtain ⟨pre, post, rfl, rfl, rfl⟩ := h
  exact ⟨pre ++ l, post, by simp, by simp⟩

theorem TextBetween.append {o o1 o2 : Nat} {l m : List ι} (h : TextBetween d o l o1)
    (h' : TextBetween d o1 m o2) : TextBetween d o (l ++ m) o2 := by
  obtain ⟨pre, post, rfl, rfl, rfl⟩ := h
  obtain ⟨pre', post', h1, h2, rfl⟩ := h'
  have e1 : dropB (pre ++ l ++ post) (blen (pre ++ l)) = some post := dropB_append _ _
  have e2 : dropB (pre ++ l ++ post) (blen (pre ++ l)) = some (m ++ post') := by
    rw [h1, show blen (pre ++ l) = blen pre' by simp; omega, List.append_assoc]
    exact dropB_append _ _
  rw [e1] at e2
  cases e2
  exact ⟨pre, post', by simp, rfl, by simp; omega⟩

theorem textBetween_iff_origSub {o n : Nat} {l : List ι} :
    origSub d o n = .ok l ↔ TextBetween d o l (o + n) := by
  rw [origSub_ok]
  constructor
  · rintro ⟨pre, post, h1, h2, h3⟩; exact ⟨pre, post, h1, h2, by omega⟩
  · rintro ⟨pre, post, h1, h2, h3⟩; exact ⟨pre, post, h1, h2, by omega⟩

theorem TextBetween.unique {o o' : Nat} {l m : List ι} (h : TextBetween d o l o')
    (h' : TextBetween d o m o') : l = m := by
  obtain ⟨pre, post, _, h2, h3⟩ := id h
  obtain ⟨pre', post', _, h2', h3'⟩ := id h'
  have e : o' = o + blen l := by omega
  have e1 := textBetween_iff_origSub.mpr (e ▸ h)
  have e2 := textBetween_iff_origSub.mpr (e ▸ h')
  rw [e1] at e2
  cases e2; rfl

/-- Post-condition of constructing with the extract handler. -/
def TextPost (d : List ι) (o : Nat) : CRes σ (Val (List ι)) → Prop
  | .ok v _ o' => TextBetween d o v.leaves.flatten o'
  | .err _ _ o' => o' = o
  | .panic => True

theorem leaves_list (vs : List (Val β)) : (Val.list vs).leaves = vs.flatMap Val.leaves := by
  induction vs with
  | nil => rfl
  | cons v vs ih => simp [Val.list, Val.leaves] at ih ⊢; rw [ih]

theorem leaves_padded (n : Nat) (vs : List (Val β)) :
    (padded n vs).leaves = vs.flatMap Val.leaves := by
  unfold padded
  rw [leaves_list, List.flatMap_append]
  have h1 : (vs.map Val.some).flatMap Val.leaves = vs.flatMap Val.leaves := by
    rw [List.flatMap_map]; rfl
  have h2 : ∀ k, (List.replicate k (Val.none : Val β)).flatMap Val.leaves = [] := by
    intro k
    induction k with
    | zero => rfl
    | succ k ih => simp [List.replicate_succ, Val.leaves, ih]
  rw [h1, h2, List.append_nil]

section

variable {G : Rules ι (List ι)} {pol : Option (Pat ι (List ι))}

theorem text_rep {cn : Pat ι (List ι) → σ → Nat → Option (CRes σ (Val (List ι)))} {p : Pat ι (List ι)}
    {more room : Nat → Bool} {ok : Nat → Bool} {e : Error} {beg : Nat}
    {w : List (Val (List ι)) → Val (List ι)} (hw : ∀ vs, (w vs).leaves = vs.flatMap Val.leaves)
    (hp : ∀ st o, Valid d o → Sat (cn p st o) (TextPost d o)) (hbeg : Valid d beg) (fuel : Nat) (st : σ) :
    Sat (conRep cn p more room (conFinish ok e beg w) fuel 0 [] st beg) (TextPost d beg) := by
  have fin : ∀ cnt vals st o, TextBetween d beg (vals.flatMap Val.leaves).flatten o →
      Sat (conFinish ok e beg w cnt vals st o) (TextPost (σ := σ) d beg) := by
    intro cnt vals st o h
    unfold conFinish; split
    · refine Sat.some ?_
      simp only [TextPost, hw]; exact h
    · exact Sat.some rfl
  refine sat_conRep (fun vals _ o => TextBetween d beg (vals.flatMap Val.leaves).flatten o)
    (P := fun _ o => TextPost d o) (fun vals st o h => hp st o h.right) trivial ?_ fin ?_ _ _ _ _ _
    (TextBetween.nil hbeg)
  · intro vals st o v st1 o1 h h1
    have := h.append h1
    simpa using this
  · intro cnt vals st o e st1 o1 h h1
    have : o1 = o := h1
    subst this
    exact fin _ _ _ _ h

/-- With the extract handler the constructed leaves are the text consumed. -/
theorem text_inv (n : Nat) (p : Pat ι (List ι)) (hp : CAll G TextKept p) (ht : All G Tidy p)
    (hb : All G (Bounded G none) p) (st : σ) (o : Nat) (ho : Valid d o) :
    Sat (con G extractH n none d p st o) (TextPost d o) := by
  induction n generalizing p st o with
  | zero => exact Sat.none
  | succ n ih =>
    have hl := hp.self
    have ch : ∀ q, CChild G q p → ∀ st o, Valid d o →
        Sat (con G extractH n none d q st o) (TextPost (σ := σ) d o) :=
      fun q hq st o ho => ih q (hp.child hq) (ht.child hq.child) (hb.child hq.child) st o ho
    have key : ∀ (m : Nat) (q : Pat ι (List ι)), All G Tidy q → All G (Bounded G none) q →
        Sat (invokeK extractH d st (parse G m none d q o)) (TextPost (σ := σ) d o) := by
      intro m q hq hq'
      refine sat_caseM (P := fun r => ExactAt o r ∧ OnBound d r)
        (fun r h => ⟨exact_inv G m d q o hq r h,
          bound_inv G m none (fun _ h => by cases h) d q o ho hq' r h⟩) trivial ?_ ?_
      · rintro s o' ⟨⟨h1, h2⟩, h3, h4, h5⟩
        obtain ⟨l, hs, _⟩ := origSub_of_valid h3 h4
        simp only [extractH, hs]
        refine Sat.some ?_
        simp only [TextPost, Val.leaves, List.flatten_cons, List.flatten_nil, List.append_nil]
        rw [h2, ← h1]
        exact textBetween_iff_origSub.mp hs
      · rintro e o' ⟨h, _⟩; exact Sat.some h
    cases p
    case empty => exact key (n + 1) _ ht hb
    case fail => exact key (n + 1) _ ht hb
    case start => exact key (n + 1) _ ht hb
    case anchorEnd => exact key (n + 1) _ ht hb
    case consume => exact key (n + 1) _ ht hb
    case consumeAll => exact key (n + 1) _ ht hb
    case lit => exact key (n + 1) _ ht hb
    case native => exact key (n + 1) _ ht hb
    case once => exact key (n + 1) _ ht hb
    case many1 => exact key (n + 1) _ ht hb
    case optU => exact key (n + 1) _ ht hb
    case many0 => exact key (n + 1) _ ht hb
    case between => exact key (n + 1) _ ht hb
    case times => exact key (n + 1) _ ht hb
    case thenU => exact key (n + 1) _ ht hb
    case assert => exact key (n + 1) _ ht hb
    case build => exact key (n + 1) _ ht hb
    case pat q => exact key n q (ht.child rfl) (hb.child rfl)
    case thn a b =>
      refine sat_caseC (ch a (.inl rfl) st o ho) trivial (fun v1 st1 o1 h1 => ?_)
        (fun _ _ _ _ => Sat.some rfl)
      refine sat_caseC (ch b (.inr rfl) st1 o1 h1.right) trivial (fun v2 st2 o2 h2 => Sat.some ?_)
        (fun _ _ _ _ => Sat.some rfl)
      simp only [TextPost, Val.leaves, List.flatten_append]
      exact h1.append h2
    case or a b =>
      exact sat_caseC (ch a (.inl rfl) st o ho) trivial (fun _ _ _ h => Sat.some h)
        (fun _ _ _ _ => sat_caseC (ch b (.inr rfl) _ o ho) trivial (fun _ _ _ h => Sat.some h)
          (fun _ _ _ _ => Sat.some rfl))
    case longest a b =>
      refine sat_caseC (ch a (.inl rfl) st o ho) trivial
        (fun _ _ _ h => sat_caseC (ch b (.inr rfl) _ o ho) trivial (fun _ _ _ h' => ?_)
          (fun _ _ _ _ => Sat.some h))
        (fun _ _ _ _ => sat_caseC (ch b (.inr rfl) _ o ho) trivial (fun _ _ _ h => Sat.some h)
          (fun _ _ _ _ => Sat.some rfl))
      split
      · exact Sat.some h
      · exact Sat.some h'
    case opt q =>
      exact sat_caseC (ch q rfl st o ho) trivial (fun _ _ _ h => Sat.some h)
        (fun _ _ _ _ => Sat.some (TextBetween.nil ho))
    case choice e items =>
      refine sat_conChoice (I := fun _ => True) (P := fun _ => TextPost d o) items
        (fun it hit st _ => ch it.1 ⟨it, hit, rfl⟩ st o ho) trivial
        (fun it hit _ v _ _ _ h => ?_) (fun _ _ _ _ _ _ => trivial) (fun _ _ => rfl) st trivial
      rw [hl it hit]; exact h
    case rep q r => exact text_rep leaves_list (ch q rfl) ho _ _
    case rep2 q a b => exact text_rep (leaves_padded _) (ch q rfl) ho _ _
    case collect q a => exact text_rep leaves_list (ch q rfl) ho _ _
    case branch t a b =>
      refine sat_caseT trivial (fun t _ => sat_caseC (ch _ ?_ st o ho) trivial
        (fun _ _ _ h => Sat.some h) (fun _ _ _ _ => Sat.some rfl)) (fun _ _ => Sat.some rfl)
      cases t
      · exact .inr rfl
      · exact .inl rfl
    case cell i =>
      simp only [con, conStep]
      cases hg : G i with
      | none => exact Sat.some rfl
      | some q => exact ch q hg st o ho
    all_goals exact hl.elim

/-! ## Handler calls -/

/-- A failing construction leaves the log alone. -/
def QuietPost (log : List (List ι)) : CRes (List (List ι)) (Val (List ι)) → Prop
  | .err _ log' _ => log' = log
  | _ => True

theorem quiet_inv_aux (n : Nat) (p : Pat ι (List ι)) (hp : CAll G Silent p) (log : List (List ι))
    (o : Nat) : Sat (con G logH n pol d p log o) (QuietPost log) := by
  induction n generalizing p log o with
  | zero => exact Sat.none
  | succ n ih =>
    have hl := hp.self
    have ch : ∀ q, CChild G q p → ∀ st o, Sat (con G logH n pol d q st o) (QuietPost st) :=
      fun q hq st o => ih q (hp.child hq) st o
    have key : ∀ m, Sat (invokeK logH d log m) (QuietPost log) := by
      intro m
      refine sat_caseM (csat_true m) trivial (fun s o' _ => ?_) (fun _ _ _ => Sat.some rfl)
      unfold logH
      cases origSub d s.beg s.len <;> exact Sat.some (by first | trivial | rfl)
    cases p
    case or a b =>
      refine sat_caseC (ch a (.inl rfl) log o) trivial (fun _ _ _ _ => Sat.some trivial)
        (fun e l1 o1 h => ?_)
      have : l1 = log := h
      subst this
      exact sat_caseC (ch b (.inr rfl) _ _) trivial (fun _ _ _ _ => Sat.some trivial)
        (fun _ _ _ h => Sat.some h)
    case pre a b =>
      exact sat_caseM (csat_true _) trivial (fun _ _ _ => sat_caseC (ch b rfl _ _) trivial
        (fun _ _ _ _ => Sat.some trivial) (fun _ _ _ h => Sat.some h)) (fun _ _ _ => Sat.some rfl)
    case branch t a b =>
      refine sat_caseT trivial (fun t _ => sat_caseC (ch _ ?_ _ o) trivial
        (fun _ _ _ h => Sat.some trivial) (fun _ _ _ h => Sat.some h)) (fun _ _ => Sat.some rfl)
      cases t
      · exact .inr rfl
      · exact .inl rfl
    case choice e items =>
      exact sat_conChoice (I := fun l => l = log) (P := fun l => QuietPost l) items
        (fun it hit st _ => ch it.1 ⟨it, hit, rfl⟩ st o) trivial
        (fun it hit _ v _ _ _ h => trivial) (fun st _ _ _ h h' => h ▸ h') (fun _ h => h) log rfl
    case cell i =>
      simp only [con, conStep]
      cases hg : G i with
      | none => exact Sat.some rfl
      | some q => exact ch q hg _ o
    all_goals first | exact key _ | exact hl.elim

/-- A successful construction logs exactly its leaves. -/
def LogPost (log : List (List ι)) : CRes (List (List ι)) (Val (List ι)) → Prop
  | .ok v log' _ => log' = log ++ v.leaves
  | _ => True

theorem log_finish {ok : Nat → Bool} {e : Error} {beg : Nat} {log : List (List ι)}
    {w : List (Val (List ι)) → Val (List ι)} (hw : ∀ vs, (w vs).leaves = vs.flatMap Val.leaves)
    (cnt : Nat) (vals : List (Val (List ι))) (st : List (List ι)) (o : Nat)
    (h : st = log ++ vals.flatMap Val.leaves) :
    Sat (conFinish ok e beg w cnt vals st o) (LogPost log) := by
  unfold conFinish; split
  · refine Sat.some ?_
    simp only [LogPost, hw]; exact h
  · exact Sat.some trivial

theorem log_rep {cn : Pat ι (List ι) → List (List ι) → Nat → Option (CRes (List (List ι)) (Val (List ι)))}
    {p : Pat ι (List ι)} {more room : Nat → Bool} {ok : Nat → Bool} {e : Error} {beg : Nat}
    {w : List (Val (List ι)) → Val (List ι)} (hw : ∀ vs, (w vs).leaves = vs.flatMap Val.leaves)
    (hp : ∀ st o, Sat (cn p st o) (LogPost st)) (hq : ∀ st o, Sat (cn p st o) (QuietPost st))
    (fuel : Nat) (log : List (List ι)) (o : Nat) :
    Sat (conRep cn p more room (conFinish ok e beg w) fuel 0 [] log o) (LogPost log) := by
  refine sat_conRep (fun vals st _ => st = log ++ vals.flatMap Val.leaves)
    (P := fun st _ r => LogPost st r ∧ QuietPost st r)
    (fun vals st o _ r hr => ⟨hp st o r hr, hq st o r hr⟩) trivial ?_ (log_finish hw) ?_ _ _ _ _ _
    (by simp)
  · rintro vals st o v st1 o1 rfl ⟨h, _⟩
    have : st1 = _ := h
    simp [this]
  · rintro cnt vals st o e st1 o1 h ⟨_, h'⟩
    have : st1 = st := h'
    exact log_finish hw _ _ _ _ (this.trans h)

theorem log_sep {cn : Pat ι (List ι) → List (List ι) → Nat → Option (CRes (List (List ι)) (Val (List ι)))}
    {p : Pat ι (List ι)} {ms : Nat → Option (Res Span)} {more room : Nat → Bool} {ok : Nat → Bool}
    {e : Error} {beg : Nat}
    {w : List (Val (List ι)) → Val (List ι)} (hw : ∀ vs, (w vs).leaves = vs.flatMap Val.leaves)
    (hp : ∀ st o, Sat (cn p st o) (LogPost st)) (hq : ∀ st o, Sat (cn p st o) (QuietPost st))
    (log : List (List ι)) (fuel cnt : Nat) (vals : List (Val (List ι))) (st : List (List ι)) (o : Nat)
    (h : st = log ++ vals.flatMap Val.leaves) :
    Sat (conSep cn ms p true more room (conFinish ok e beg w) fuel cnt vals st o) (LogPost log) := by
  induction fuel generalizing cnt vals st o with
  | zero => exact Sat.none
  | succ n ih =>
    simp only [conSep]
    split
    · refine sat_caseC (P := fun r => LogPost st r ∧ QuietPost st r)
        (fun r hr => ⟨hp st o r hr, hq st o r hr⟩) trivial (fun v st1 o1 h1 => ?_)
        (fun e st1 o1 h1 => ?_)
      · have h2 : st1 = log ++ (vals ++ [v]).flatMap Val.leaves := by
          have : st1 = st ++ v.leaves := h1.1
          simp [this, h]
        refine sat_caseM (csat_true _) trivial (fun _ _ _ => ?_) (fun _ _ _ => ?_)
        · split
          · exact ih _ _ _ _ h2
          · exact Sat.some trivial
        · simp only [if_true]
          split
          · exact log_finish hw _ _ _ _ h2
          · exact Sat.some trivial
      · have : st1 = st := h1.2
        exact log_finish hw _ _ _ _ (this.trans h)
    · exact log_finish hw _ _ _ _ h

theorem log_inv (n : Nat) (p : Pat ι (List ι)) (hp : CAll G (Direct G) p) (log : List (List ι)) (o : Nat) :
    Sat (con G logH n pol d p log o) (LogPost log) := by
  induction n generalizing p log o with
  | zero => exact Sat.none
  | succ n ih =>
    have hl := hp.self
    have ch : ∀ q, CChild G q p → ∀ st o, Sat (con G logH n pol d q st o) (LogPost st) :=
      fun q hq st o => ih q (hp.child hq) st o
    have key : ∀ m, Sat (invokeK logH d log m) (LogPost log) := by
      intro m
      refine sat_caseM (csat_true m) trivial (fun s o' _ => ?_) (fun _ _ _ => Sat.some trivial)
      unfold logH
      cases origSub d s.beg s.len with
      | ok l => exact Sat.some (by simp [LogPost, Val.leaves])
      | err e => exact Sat.some trivial
      | panic => exact Sat.some trivial
    have qt : ∀ q, CAll G Silent q → ∀ st o, Sat (con G logH n pol d q st o) (QuietPost st) :=
      fun q hq st o => quiet_inv_aux n q hq st o
    cases p
    case thn a b =>
      refine sat_caseC (ch a (.inl rfl) _ _) trivial (fun v1 l1 o1 h1 => ?_)
        (fun _ _ _ _ => Sat.some trivial)
      refine sat_caseC (ch b (.inr rfl) _ _) trivial (fun v2 l2 o2 h2 => Sat.some ?_)
        (fun _ _ _ _ => Sat.some trivial)
      have e1 : l1 = _ := h1
      have e2 : l2 = _ := h2
      simp [LogPost, Val.leaves, e2, e1]
    case ifThen a t b =>
      refine sat_caseC (ch a (.inl rfl) _ _) trivial (fun v1 l1 o1 h1 => ?_)
        (fun _ _ _ _ => Sat.some trivial)
      have e1 : l1 = _ := h1
      refine sat_caseM (csat_true _) trivial (fun _ _ _ => ?_) (fun _ _ _ => Sat.some ?_)
      · refine sat_caseC (ch b (.inr rfl) _ _) trivial (fun v2 l2 o2 h2 => Sat.some ?_)
          (fun _ _ _ _ => Sat.some trivial)
        have e2 : l2 = _ := h2
        simp [LogPost, Val.leaves, e2, e1]
      · simp [LogPost, Val.leaves, e1]
    case pre a b =>
      exact sat_caseM (csat_true _) trivial (fun _ _ _ => sat_caseC (ch b rfl _ _) trivial
        (fun _ _ _ h => Sat.some h) (fun _ _ _ h => Sat.some trivial)) (fun _ _ _ => Sat.some trivial)
    case suf a b =>
      exact sat_caseC (ch a rfl _ _) trivial (fun _ _ _ h => sat_caseM (csat_true _) trivial
        (fun _ _ _ => Sat.some h) (fun _ _ _ => Sat.some trivial)) (fun _ _ _ _ => Sat.some trivial)
    case enclose a b c =>
      exact sat_caseM (csat_true _) trivial (fun _ _ _ => sat_caseC (ch b rfl _ _) trivial
        (fun _ _ _ h => sat_caseM (csat_true _) trivial (fun _ _ _ => Sat.some h)
          (fun _ _ _ => Sat.some trivial)) (fun _ _ _ _ => Sat.some trivial)) (fun _ _ _ => Sat.some trivial)
    case sepOnce a b c =>
      refine sat_caseC (ch a (.inl rfl) _ _) trivial (fun v1 l1 o1 h1 => ?_)
        (fun _ _ _ _ => Sat.some trivial)
      have e1 : l1 = _ := h1
      refine sat_caseM (csat_true _) trivial (fun _ _ _ => ?_) (fun _ _ _ => Sat.some trivial)
      refine sat_caseC (ch c (.inr rfl) _ _) trivial (fun v2 l2 o2 h2 => Sat.some ?_)
        (fun _ _ _ _ => Sat.some trivial)
      have e2 : l2 = _ := h2
      simp [LogPost, Val.leaves, e2, e1]
    case or a b =>
      refine sat_caseC (P := fun r => LogPost log r ∧ QuietPost log r)
        (fun r hr => ⟨ch a (.inl rfl) _ _ r hr, qt a hl _ _ r hr⟩) trivial
        (fun _ _ _ h => Sat.some h.1) (fun e l1 o1 h => ?_)
      have e1 : l1 = log := h.2
      subst e1
      exact sat_caseC (ch b (.inr rfl) _ _) trivial (fun _ _ _ h => Sat.some h)
        (fun _ _ _ _ => Sat.some trivial)
    case opt q =>
      refine sat_caseC (P := fun r => LogPost log r ∧ QuietPost log r)
        (fun r hr => ⟨ch q rfl _ _ r hr, qt q hl _ _ r hr⟩) trivial
        (fun _ _ _ h => Sat.some h.1) (fun e l1 o1 h => Sat.some ?_)
      have e1 : l1 = log := h.2
      simp [LogPost, Val.leaves, e1]
    case choice e items =>
      refine sat_conChoice (I := fun l => l = log) (P := fun l r => LogPost l r ∧ QuietPost l r) items
        (fun it hit st _ r hr => ⟨ch it.1 ⟨it, hit, rfl⟩ _ _ r hr, qt it.1 (hl it hit).1 _ _ r hr⟩) trivial
        (fun it hit st v _ _ e h => ?_) (fun st _ st1 _ e h => ?_) (fun _ _ => trivial) log rfl
      · rw [(hl it hit).2]; subst e; exact h.1
      · have : st1 = st := h.2
        exact this.trans e
    case rep q r => exact log_rep leaves_list (ch q rfl) (qt q hl) _ _ _
    case rep2 q a b => exact log_rep (leaves_padded _) (ch q rfl) (qt q hl) _ _ _
    case collect q a => exact log_rep leaves_list (ch q rfl) (qt q hl) _ _ _
    case sep q s k a =>
      obtain ⟨h1, rfl⟩ := hl
      exact log_sep leaves_list (ch q rfl) (qt q h1) _ _ _ _ _ _ (by simp)
    case sep2 q s k a b =>
      obtain ⟨h1, rfl⟩ := hl
      exact log_sep (leaves_padded _) (ch q rfl) (qt q h1) _ _ _ _ _ _ (by simp)
    case branch t a b =>
      refine sat_caseT trivial (fun t _ => sat_caseC (ch _ ?_ _ o) trivial
        (fun _ _ _ h => Sat.some h) (fun _ _ _ h => Sat.some trivial)) (fun _ _ => Sat.some trivial)
      cases t
      · exact .inr rfl
      · exact .inl rfl
    case dthen q f =>
      refine sat_caseC (ch q (.inl rfl) _ _) trivial (fun v1 l1 o1 h1 => ?_)
        (fun _ _ _ _ => Sat.some trivial)
      have e1 : l1 = _ := h1
      refine sat_caseM (P := fun r => f d o1 v1 = r) (Sat.some rfl) trivial
        (fun p' o2 hf => ?_) (fun _ _ _ => Sat.some trivial)
      refine sat_caseC (ch p' (.inr ⟨_, _, _, _, hf⟩) _ _) trivial (fun v2 l2 o2 h2 => Sat.some ?_)
        (fun _ _ _ _ => Sat.some trivial)
      have e2 : l2 = _ := h2
      simp [LogPost, Val.leaves, e2, e1]
    case cell i =>
      simp only [con, conStep]
      cases hg : G i with
      | none => exact Sat.some trivial
      | some q => exact ch q hg _ o
    all_goals first | exact key _ | exact hl.elim

end

end Neure
