import Verif.BlameSpec
import Verif.Inv
import Verif.CtorText
/-!
# Lemmas for C85: where errors come from
-/

namespace Neure

set_option linter.unusedSectionVars false

variable {ι β σ : Type} [Item ι] {G : Rules ι β} {pol : Option (Pat ι β)} {d : List ι} {K : Nat → Prop}

/-- A failure satisfies `C`. -/
def ErrIs {α : Type} (C : Error → Prop) : Res α → Prop
  | .err e _ => C e
  | _ => True

theorem blame_ok {α : Type} {C : Error → Prop} {a : α} {o : Nat} : Sat (some (.ok a o)) (ErrIs C) := Sat.some trivial
theorem blame_err {α : Type} {C : Error → Prop} {e : Error} {o : Nat} (h : C e) : Sat (some (.err e o : Res α)) (ErrIs C) :=
  Sat.some h
theorem blame_addK {C : Error → Prop} {s t : Span} {k : Span → Option (Res Span)} (h : ∀ s', Sat (k s') (ErrIs C)) :
    Sat (addK s t k) (ErrIs C) := sat_addK (fun s' _ => h s') fun _ => trivial

/-! ## Leaves -/

theorem valid_inside {l : List ι} {o : Nat} {pr : Nat × ι} (hl : dropB d o = some l) (h : pr ∈ indices 0 l) :
    ∃ l', origAt d (o + pr.1) = .ok l' := by
  obtain ⟨a, b, rfl, h2⟩ := mem_indices h
  refine ⟨pr.2 :: b, origAt_ok.mpr ?_⟩
  obtain ⟨c, rfl, h3⟩ := dropB_eq_some.mp hl
  exact dropB_eq_some.mpr ⟨c ++ a, by simp, by simp [h2, h3]⟩

variable {mt : List ι → Pat ι β → Nat → Option (Res Span)}

theorem says_of_test {l : List ι} {o : Nat} {u : Neu ι} {c : Cond ι β} {pr : Nat × ι} {e : Error}
    (hl : dropB d o = some l) (hm : pr ∈ indices 0 l) (h : testItem mt d o u c pr = some (.err e)) : c.Says d o e := by
  unfold testItem at h
  split at h
  · unfold check at h
    split at h
    · cases h
    · next f => exact ⟨pr, Option.some.inj h⟩
    · obtain ⟨l', h'⟩ := valid_inside hl hm
      rw [h'] at h
      simp only at h
      split at h <;> cases h
  · cases h

theorem off_of_peek {o : Nat} {e : Error} (h : peek d o = .err e) : Off d o e := by
  unfold peek at h
  split at h <;> cases h
  next e h =>
  unfold origAt at h
  split at h
  · cases h
  · split at h <;> cases h
    next h => exact ⟨rfl, fun hv => by obtain ⟨l, hl⟩ := valid_iff_dropB.mp hv; rw [hl] at h; cases h⟩

theorem scan_says {test : Nat × ι → Option (Out Bool)} {more : Nat → Bool} {cnt : Nat}
    {beg : Option Nat} {it : List (Nat × ι)} {e : Error}
    (h : scan test more cnt beg it = some (.err e)) : ∃ pr ∈ it, test pr = some (.err e) := by
  induction it generalizing cnt beg with
  | nil => simp [scan] at h
  | cons pr it ih =>
    simp only [scan] at h
    split at h
    · split at h
      · cases h
      · cases h
      · next e' ht => cases h; exact ⟨pr, by simp, ht⟩
      · obtain ⟨pr', h1, h2⟩ := ih h; exact ⟨pr', by simp [h1], h2⟩
      · cases h
    · cases h

theorem blame_spanK {C : Error → Prop} {o : Nat} {l : Option Nat} : Sat (spanK o l) (ErrIs C) := by
  unfold spanK
  split
  · exact Sat.some trivial
  · exact Sat.some trivial

/-- The common part of the units: look at what is left, or else the position is off. -/
theorem blame_peek {C : Error → Prop} {o : Nat} {k : List (Nat × ι) → Option (Res Span)} {kerr : Error → Option (Res Span)}
    (h : ∀ l, dropB d o = some l → Sat (k (indices 0 l)) (ErrIs C)) (he : ∀ e, Off d o e → Sat (kerr e) (ErrIs C)) :
    Sat (caseO (some (peek d o)) k kerr) (ErrIs C) :=
  sat_caseO (P := fun x => x = peek d o) (Sat.some rfl) (fun it hit => by
    obtain ⟨l, hl, rfl⟩ := peek_ok.mp hit.symm; exact h l hl) (fun e he' => he e (off_of_peek he'.symm)) fun _ => trivial

theorem blame_test {C : Error → Prop} {o : Nat} {l : List ι} {u : Neu ι} {c : Cond ι β} {pr : Nat × ι}
    {k : Bool → Option (Res Span)} (hl : dropB d o = some l) (hm : pr ∈ indices 0 l) (hc : ∀ e, c.Says d o e → C e)
    (h : ∀ b, Sat (k b) (ErrIs C)) : Sat (caseO (testItem mt d o u c pr) k fun e => some (.err e o)) (ErrIs C) :=
  sat_caseO (P := fun y => testItem mt d o u c pr = some y) (fun _ hy => hy) (fun b _ => h b)
    (fun e he => blame_err (hc e (says_of_test hl hm he))) fun _ => trivial

theorem blame_scan {C : Error → Prop} {o : Nat} {l : List ι} {u : Neu ι} {c : Cond ι β} {more : Nat → Bool}
    {k : Scan ι → Option (Res Span)} (hl : dropB d o = some l) (hc : ∀ e, c.Says d o e → C e)
    (h : ∀ b, Sat (k b) (ErrIs C)) :
    Sat (caseO (scan (testItem mt d o u c) more 0 none (indices 0 l)) k fun e => some (.err e o)) (ErrIs C) :=
  sat_caseO (P := fun y => scan (testItem mt d o u c) more 0 none (indices 0 l) = some y) (fun _ hy => hy)
    (fun b _ => h b) (fun e he => by
      obtain ⟨pr, h1, h2⟩ := scan_says he; exact blame_err (hc e (says_of_test hl h1 h2))) fun _ => trivial

section
variable {C : Error → Prop} {u v : Neu ι} {c : Cond ι β} {o : Nat} (hs : ∀ e, c.Says d o e → C e) (ho : ∀ e, Off d o e → C e)
include hs

theorem once_blame (h : C .once) (ho : ∀ e, Off d o e → C e) : Sat (onceParse mt d u c o) (ErrIs C) := by
  unfold onceParse
  refine blame_peek (fun l hl => sat_remK (fun _ => ?_) fun _ => trivial) fun e he => blame_err (ho e he)
  cases l with
  | nil => exact blame_err h
  | cons x l => exact blame_test hl (by simp) hs fun b => sat_ite (fun _ => blame_spanK) fun _ => blame_err h

theorem optU_blame : Sat (optUParse mt d u c o) (ErrIs C) := by
  unfold optUParse
  refine sat_remK (fun _ => blame_peek (fun l hl => ?_) fun e he => blame_ok) fun _ => trivial
  cases l with
  | nil => exact blame_ok
  | cons x l => exact blame_test hl (by simp) hs fun b => sat_ite (fun _ => blame_spanK) fun _ => blame_ok

theorem many0_blame : Sat (many0Parse mt d u c o) (ErrIs C) := by
  unfold many0Parse
  refine sat_remK (fun _ => blame_peek (fun l hl => blame_scan hl hs fun b => ?_) fun e he => blame_ok) fun _ => trivial
  split
  · exact blame_ok
  · exact blame_spanK

theorem many1_blame (h : C .many1) (ho : ∀ e, Off d o e → C e) : Sat (many1Parse mt d u c o) (ErrIs C) := by
  unfold many1Parse
  refine blame_peek (fun l hl => sat_remK (fun _ => blame_scan hl hs fun b => ?_) fun _ => trivial) fun e he => blame_err (ho e he)
  split
  · exact blame_err h
  · exact blame_spanK

theorem between_blame {m n : Nat} (h : C .between) (ho : ∀ e, Off d o e → C e) :
    Sat (betweenParse mt d m n u c o) (ErrIs C) := by
  unfold betweenParse
  exact blame_peek (fun l hl => sat_remK (fun _ => sat_ite (fun _ => blame_scan hl hs fun b =>
    sat_ite (fun _ => blame_spanK) fun _ => blame_err h) fun _ => blame_err h) fun _ => trivial) fun e he => blame_err (ho e he)

theorem times_blame {r : CRange} (h : C .times) (ho : ∀ e, Off d o e → C e) : Sat (timesParse mt d r u c o) (ErrIs C) := by
  unfold timesParse
  exact blame_peek (fun l hl => sat_remK (fun _ => sat_ite (fun _ => blame_scan hl hs fun b =>
    sat_ite (fun _ => blame_spanK) fun _ => blame_err h) fun _ => blame_err h) fun _ => trivial) fun e he => blame_err (ho e he)

theorem thenU_blame (h : C .neureThen) (ho : ∀ e, Off d o e → C e) : Sat (thenUParse mt d u v c o) (ErrIs C) := by
  unfold thenUParse
  refine blame_peek (fun l hl => sat_remK (fun _ => sat_ite (fun _ => ?_) fun _ => blame_err h) fun _ => trivial)
    fun e he => blame_err (ho e he)
  match l, hl with
  | [], _ => exact blame_err h
  | [_], _ => exact blame_err h
  | x :: y :: l, hl =>
    simp only [indices_cons]
    exact blame_test hl (by simp) hs fun b => sat_ite (fun _ => blame_test hl (by simp) hs fun b =>
      sat_ite (fun _ => blame_spanK) fun _ => blame_err h) fun _ => blame_err h

end

theorem lit_blame {C : Error → Prop} {l : List ι} {o : Nat} (h : C .literal) (ho : ∀ e, Off d o e → C e) :
    Sat (litParse d l o) (ErrIs C) := by
  unfold litParse
  refine sat_remK (fun _ => sat_ite (fun _ => ?_) fun _ => blame_err h) fun _ => trivial
  refine sat_caseO (P := fun x => x = origAt d o) (Sat.some rfl) (fun l hl => ?_)
    (fun e he => blame_err (ho e (off_of_peek (by simp [peek, ← he])))) fun _ => trivial
  exact sat_ite (fun _ => blame_ok) fun _ => blame_err h

/-! ## Combinators -/

theorem finish_blame {C : Error → Prop} {ok : Nat → Bool} {e : Error} {beg cnt : Nat} {t : Span} {o : Nat} (h : C e) :
    Sat (finish ok e beg cnt t o) (ErrIs C) := by
  unfold finish; split
  · exact blame_ok
  · exact blame_err h

theorem repLoop_blame {C : Error → Prop} {m : Pat ι β → Nat → Option (Res Span)} {q : Pat ι β} {more : Nat → Bool}
    {ok : Nat → Bool} {e : Error} {beg : Nat} {n cnt : Nat} {t : Span} {o : Nat} (h : C e) :
    Sat (repLoop m q more (finish ok e beg) n cnt t o) (ErrIs C) := by
  refine sat_repLoop (fun _ _ _ => True) (fun _ _ _ _ _ => ?_) (fun _ _ _ _ _ => finish_blame h) _ _ _ _ trivial
  intro r _
  cases r with
  | ok => exact ⟨fun _ _ => trivial, fun _ => trivial⟩
  | err => exact finish_blame h
  | panic => trivial

theorem sepLoop_blame {C : Error → Prop} {m : Pat ι β → Nat → Option (Res Span)} {q s : Pat ι β} {sk : Bool}
    {more : Nat → Bool} {ok : Nat → Bool} {e : Error} {beg : Nat} {n cnt : Nat} {t : Span} {o : Nat} (h : C e) :
    Sat (sepLoop m q s sk more (finish ok e beg) n cnt t o) (ErrIs C) := by
  refine sat_sepLoop (fun _ _ _ => True) (fun _ _ _ _ _ => ?_) (fun _ _ _ _ _ => finish_blame h) _ _ _ _ trivial
  intro r _
  cases r with
  | ok =>
    intro r' _
    cases r' with
    | ok => exact ⟨fun _ _ _ _ => trivial, fun _ => trivial, fun _ _ _ => trivial⟩
    | err => exact ⟨fun _ => ⟨fun _ _ => finish_blame h, fun _ => trivial⟩, fun _ => finish_blame h⟩
    | panic => trivial
  | err => exact finish_blame h
  | panic => trivial

theorem choice_blame {C : Error → Prop} {m : Pat ι β → Nat → Option (Res Span)} {e : Error} {beg : Nat}
    {items : List (Pat ι β × Option (Val β))} (h : C e) : Sat (choiceLoop m e beg items beg) (ErrIs C) :=
  sat_choiceLoop items (fun _ _ r _ => by cases r <;> trivial) h

theorem ltm_blame {C : Error → Prop} {m : Pat ι β → Nat → Option (Res Span)} {e : Error} {beg : Nat}
    {items : List (Pat ι β × Option (Val β))} {best : Option Span} {o : Nat} (h : C e) :
    Sat (ltmLoop m e beg items best o) (ErrIs C) :=
  sat_ltmLoop (fun _ _ => True) items (fun _ _ _ _ _ r _ => by cases r <;> trivial) (fun _ _ _ => trivial)
    (fun _ _ => h) _ _ trivial

/-- What is to be shown of an error of `p` at `o`. -/
def Because (G : Rules ι β) (pol : Option (Pat ι β)) (d : List ι) (K : Nat → Prop) (p : Pat ι β) (o : Nat) (e : Error) : Prop :=
  Own G d o e p ∨ (∃ q o₁, Speaks G q p ∧ K o₁ ∧ Cause G d K pol q o₁ e) ∨
    ∃ k q o₁, pol = some k ∧ Speaks G q p ∧ (∀ i, p ≠ .cell i) ∧ K o₁ ∧ Cause G d K none k o₁ e

theorem Because.cause {p : Pat ι β} {o o' : Nat} {e : Error} (h : Because G pol d K p o e)
    (hr : Parses G pol d p o (.err e o')) : Cause G d K pol p o e := by
  rcases h with h | ⟨q, o₁, h1, h2, h3⟩ | ⟨k, q, o₁, rfl, h1, h2, h3, h4⟩
  · exact .own h hr
  · exact .part h1 h2 h3
  · exact .skip h1 h2 h3 h4

theorem cause_inv (n : Nat) : ∀ {pol : Option (Pat ι β)} {S : Pat ι β → Prop} {p : Pat ι β} {o : Nat},
    KeptIn G pol d K S → (∀ k, pol = some k → ∃ S', KeptIn G none d K S' ∧ S' k) → S p → K o →
    Sat (parse G n pol d p o) (ErrIs fun e => Cause G d K pol p o e) := by
  induction n with
  | zero => intros; exact Sat.none
  | succ n ih =>
    intro pol S p o hS hpol hp ho
    -- a part that speaks
    have I : ∀ q o₁, S q → K o₁ → Sat (matWith (parse G n) pol d q o₁) (fun r => match r with
        | .ok _ o' => K o'
        | .err e _ => Speaks G q p → (∀ i, p ≠ .cell i) → Because G pol d K p o e
        | .panic => True) := by
      intro q o₁ hq ho₁ r hr
      cases r with
      | panic => trivial
      | ok s o' => exact hS.moves hq ho₁ ⟨n, hr⟩
      | err e o' =>
        intro hs hc
        cases pol with
        | none => exact .inr (.inl ⟨q, o₁, hs, ho₁, ih hS hpol hq ho₁ _ hr⟩)
        | some k =>
          obtain ⟨S', hS', hk⟩ := hpol k rfl
          simp only [matWith, caseR] at hr
          split at hr
          · cases hr
          · cases hr
          · next s o₂ hk' =>
            exact .inr (.inl ⟨q, o₂, hs, hS'.moves hk ho₁ ⟨n, hk'⟩, ih hS hpol hq (hS'.moves hk ho₁ ⟨n, hk'⟩) _ hr⟩)
          · next e₁ o₂ hk' =>
            cases hr
            exact .inr (.inr ⟨k, q, o₁, rfl, hs, hc, ho₁, ih hS' (fun _ h => by cases h) hk ho₁ _ hk'⟩)
    have goal : Sat (parse G (n + 1) pol d p o) (ErrIs fun e => Because G pol d K p o e) := by
      have O : ∀ {e o'}, Own G d o e p → Sat (some (.err e o' : Res Span)) (ErrIs fun e => Because G pol d K p o e) :=
        fun h => blame_err (.inl h)
      simp only [parse]
      cases p <;> simp only [step]
      case empty => exact blame_ok
      case fail => exact O rfl
      case start => exact sat_ite (fun _ => blame_ok) fun _ => O rfl
      case anchorEnd => exact sat_ite (fun _ => blame_ok) fun _ => O rfl
      case consume => exact sat_remK (fun _ => sat_ite (fun _ => blame_ok) fun _ => O rfl) fun _ => trivial
      case consumeAll => exact blame_ok
      case lit => exact lit_blame (.inl (.inl rfl)) fun e h => .inl (.inr h)
      case native f =>
        intro r hr
        cases r with
        | err e o' => exact .inl ⟨o', Option.some.inj hr⟩
        | ok => trivial
        | panic => trivial
      case once => exact once_blame (fun e h => .inl (.inr (.inr h))) (.inl (.inl rfl)) fun e h => .inl (.inr (.inl h))
      case many1 => exact many1_blame (fun e h => .inl (.inr (.inr h))) (.inl (.inl rfl)) fun e h => .inl (.inr (.inl h))
      case optU => exact optU_blame fun e h => .inl h
      case many0 => exact many0_blame fun e h => .inl h
      case between => exact between_blame (fun e h => .inl (.inr (.inr h))) (.inl (.inl rfl)) fun e h => .inl (.inr (.inl h))
      case times => exact times_blame (fun e h => .inl (.inr (.inr h))) (.inl (.inl rfl)) fun e h => .inl (.inr (.inl h))
      case thenU => exact thenU_blame (fun e h => .inl (.inr (.inr h))) (.inl (.inl rfl)) fun e h => .inl (.inr (.inl h))
      case assert q v =>
        exact sat_caseR (sat_true _) (fun _ _ _ => by cases v; exact O rfl; exact blame_ok)
          (fun _ _ _ => by cases v; exact blame_ok; exact O rfl) fun _ => trivial
      case choice => exact choice_blame (.inl rfl)
      case ltm => exact ltm_blame (.inl rfl)
      case rep => exact repLoop_blame (.inl rfl)
      case rep2 => exact repLoop_blame (.inl rfl)
      case collect => exact repLoop_blame (.inl rfl)
      case sep => exact sepLoop_blame (.inl rfl)
      case sep2 => exact sepLoop_blame (.inl rfl)
      case sepCollect => exact sepLoop_blame (.inl rfl)
      case opt => exact sat_caseR (sat_true _) (fun _ _ _ => blame_ok) (fun _ _ _ => blame_ok) fun _ => trivial
      case dthen => exact Sat.some trivial
      case thn a b =>
        exact sat_caseR (I a o (hS.parts hp (.inl rfl)) ho) (fun s o₁ h1 => sat_caseR (I b o₁ (hS.parts hp (.inr rfl)) h1)
          (fun _ _ _ => blame_addK fun _ => blame_ok) (fun e _ h => blame_err (h (.inr rfl) (by simp))) fun _ => trivial)
          (fun e _ h => blame_err (h (.inl rfl) (by simp))) fun _ => trivial
      case pre a b =>
        exact sat_caseR (I a o (hS.parts hp (.inl rfl)) ho) (fun s o₁ h1 => sat_caseR (I b o₁ (hS.parts hp (.inr rfl)) h1)
          (fun _ _ _ => blame_addK fun _ => blame_ok) (fun e _ h => blame_err (h (.inr rfl) (by simp))) fun _ => trivial)
          (fun e _ h => blame_err (h (.inl rfl) (by simp))) fun _ => trivial
      case suf a b =>
        exact sat_caseR (I a o (hS.parts hp (.inl rfl)) ho) (fun s o₁ h1 => sat_caseR (I b o₁ (hS.parts hp (.inr rfl)) h1)
          (fun _ _ _ => blame_addK fun _ => blame_ok) (fun e _ h => blame_err (h (.inr rfl) (by simp))) fun _ => trivial)
          (fun e _ h => blame_err (h (.inl rfl) (by simp))) fun _ => trivial
      case ifThen a t b =>
        exact sat_caseR (I a o (hS.parts hp (.inl rfl)) ho) (fun s o₁ h1 => sat_caseR (I t o₁ (hS.test hp) h1)
          (fun _ o₂ h2 => blame_addK fun _ => sat_caseR (I b o₂ (hS.parts hp (.inr rfl)) h2)
            (fun _ _ _ => blame_addK fun _ => blame_ok) (fun e _ h => blame_err (h (.inr rfl) (by simp))) fun _ => trivial)
          (fun _ _ _ => blame_ok) fun _ => trivial) (fun e _ h => blame_err (h (.inl rfl) (by simp))) fun _ => trivial
      case enclose a b c =>
        exact sat_caseR (I a o (hS.parts hp (.inl rfl)) ho) (fun s o₁ h1 =>
          sat_caseR (I b o₁ (hS.parts hp (.inr (.inl rfl))) h1)
          (fun _ o₂ h2 => blame_addK fun _ => sat_caseR (I c o₂ (hS.parts hp (.inr (.inr rfl))) h2)
            (fun _ _ _ => blame_addK fun _ => blame_ok) (fun e _ h => blame_err (h (.inr (.inr rfl)) (by simp))) fun _ => trivial)
          (fun e _ h => blame_err (h (.inr (.inl rfl)) (by simp))) fun _ => trivial)
          (fun e _ h => blame_err (h (.inl rfl) (by simp))) fun _ => trivial
      case sepOnce a b c =>
        exact sat_caseR (I a o (hS.parts hp (.inl rfl)) ho) (fun s o₁ h1 => blame_addK fun _ =>
          sat_caseR (I b o₁ (hS.parts hp (.inr (.inl rfl))) h1)
          (fun _ o₂ h2 => blame_addK fun _ => sat_caseR (I c o₂ (hS.parts hp (.inr (.inr rfl))) h2)
            (fun _ _ _ => blame_addK fun _ => blame_ok) (fun e _ h => blame_err (h (.inr (.inr rfl)) (by simp))) fun _ => trivial)
          (fun e _ h => blame_err (h (.inr (.inl rfl)) (by simp))) fun _ => trivial)
          (fun e _ h => blame_err (h (.inl rfl) (by simp))) fun _ => trivial
      case or a b =>
        exact sat_caseR (sat_true _) (fun _ _ _ => blame_ok) (fun _ _ _ => sat_caseR (I b o (hS.parts hp rfl) ho)
          (fun _ _ _ => blame_ok) (fun e _ h => blame_err (h rfl (by simp))) fun _ => trivial) fun _ => trivial
      case longest a b =>
        exact sat_caseR (sat_true _) (fun _ _ _ => sat_caseR (sat_true _)
          (fun _ _ _ => sat_ite (fun _ => blame_ok) fun _ => blame_ok) (fun _ _ _ => blame_ok) fun _ => trivial)
          (fun _ _ _ => sat_caseR (I b o (hS.parts hp rfl) ho)
          (fun _ _ _ => blame_ok) (fun e _ h => blame_err (h rfl (by simp))) fun _ => trivial) fun _ => trivial
      case branch t a b =>
        refine sat_caseO (P := fun x => x = t d o) (Sat.some rfl) (fun v _ => ?_) (fun e h => O h.symm) fun _ => trivial
        have hs : Speaks G (if v then a else b) (.branch t a b) := by cases v; exact .inr rfl; exact .inl rfl
        exact sat_caseR (I _ o (hS.parts hp hs) ho) (fun _ _ _ => blame_ok) (fun e _ h => blame_err (h hs (by simp))) fun _ => trivial
      case map q f =>
        exact (I q o (hS.parts hp rfl) ho).imp fun r h => by
          cases r with
          | err => exact h rfl (by simp)
          | ok => trivial
          | panic => trivial
      case pat q =>
        exact (I q o (hS.parts hp rfl) ho).imp fun r h => by
          cases r with
          | err => exact h rfl (by simp)
          | ok => trivial
          | panic => trivial
      case build q f =>
        refine sat_caseR (I q o (hS.parts hp (.inl rfl)) ho) (fun s o₁ h1 => ?_)
          (fun e _ h => blame_err (h (.inl rfl) (by simp))) fun _ => trivial
        refine sat_caseR (P := fun x => x = f d o₁ s) (Sat.some rfl) (fun q' o₂ hq => ?_)
          (fun e o₂ hh => O ⟨_, _, _, hh.symm⟩) (fun _ => trivial)
        have hs : Speaks G q' (.build q f) := .inr ⟨_, _, _, _, hq.symm⟩
        exact sat_caseR (I q' o₂ (hS.parts hp hs) (hS.builds hp h1 hq.symm)) (fun _ _ _ => blame_ok)
          (fun e _ h => blame_err (h hs (by simp))) fun _ => trivial
      case cell i =>
        split
        · next h => exact O ⟨h, rfl⟩
        · next q hq =>
          exact (ih hS hpol (hS.parts hp hq) ho).imp fun r h => by
            cases r with
            | err => exact .inr (.inl ⟨q, o, hq, ho, h⟩)
            | ok => trivial
            | panic => trivial
    intro r hr
    cases r with
    | err e o' => exact (goal _ hr).cause ⟨n + 1, hr⟩
    | ok => trivial
    | panic => trivial

end Neure
