import Verif.MachineMono
/-!
# Turning a check off: helper lemmas

A build with more checks either panics or takes, step by step, the same course as a
build with fewer checks.
-/

namespace Neure

set_option linter.unusedSectionVars false
set_option linter.unusedSimpArgs false

/-- `b` makes every check that `b'` makes (compiler options; not a function of the crate). -/
def Build.Stricter (b b' : Build) : Prop :=
  (b'.overflowChecks = true → b.overflowChecks = true) ∧
    (b'.debugAssertions = true → b.debugAssertions = true)

namespace Debug

variable {ι β σ : Type} [Item ι] {b b' : Build} {G : Rules ι β}

/-- Types with a panic. -/
class Bad (γ : Type) where
  bad : γ

instance {α : Type} : Bad (Res α) := ⟨.panic⟩
instance {α : Type} : Bad (Out α) := ⟨.panic⟩
instance {α : Type} : Bad (CRes σ α) := ⟨.panic⟩

/-- The first one panics, or both agree (finished or not). -/
def Q {γ : Type} [Bad γ] (x y : Option γ) : Prop := x = some Bad.bad ∨ x = y

theorem Q.refl {γ : Type} [Bad γ] (x : Option γ) : Q x x := .inr rfl

/-- The same for one `usize` operation: `none` is the panic. -/
def N {γ : Type} (x y : Option γ) : Prop := x = none ∨ x = y

variable (hb : b.Stricter b')
include hb

theorem add_N (x y : Nat) : N (b.add x y) (b'.add x y) := by
  unfold Build.add N
  by_cases h : x + y < wordSize
  · simp [h]
  · simp only [h, if_false]
    cases h1 : b.overflowChecks with
    | true => simp
    | false =>
      cases h2 : b'.overflowChecks with
      | true => rw [hb.1 h2] at h1; cases h1
      | false => simp

theorem sub_N (x y : Nat) : N (b.sub x y) (b'.sub x y) := by
  unfold Build.sub N
  by_cases h : y ≤ x
  · simp [h]
  · simp only [h, if_false]
    cases h1 : b.overflowChecks with
    | true => simp
    | false =>
      cases h2 : b'.overflowChecks with
      | true => rw [hb.1 h2] at h1; cases h1
      | false => simp

theorem mul_N (x y : Nat) : N (b.mul x y) (b'.mul x y) := by
  unfold Build.mul N
  by_cases h : x * y < wordSize
  · simp [h]
  · simp only [h, if_false]
    cases h1 : b.overflowChecks with
    | true => simp
    | false =>
      cases h2 : b'.overflowChecks with
      | true => rw [hb.1 h2] at h1; cases h1
      | false => simp

omit hb in
theorem bind_N {α γ : Type} {x y : Option α} {k k' : α → Option γ} (h : N x y)
    (hk : ∀ a, N (k a) (k' a)) : N (x.bind k) (y.bind k') := by
  rcases h with h | h
  · left; simp [h]
  · subst h
    cases x with
    | none => left; rfl
    | some a => exact hk a

omit hb in
theorem map_N {α γ : Type} {x y : Option α} {k : α → γ} (h : N x y) : N (x.map k) (y.map k) := by
  rcases h with h | h
  · left; simp [h]
  · right; rw [h]

theorem addAssign_N (s t : Span) : N (s.addAssignM b t) (s.addAssignM b' t) := by
  unfold Span.addAssignM
  cases h1 : b.debugAssertions && !decide (t.beg ≥ s.beg) with
  | true => left; simp
  | false =>
    have h2 : (b'.debugAssertions && !decide (t.beg ≥ s.beg)) = false := by
      cases h3 : b'.debugAssertions with
      | false => rfl
      | true => rw [hb.2 h3] at h1; exact h1
    simp only [h2]
    exact bind_N (add_N hb _ _) fun _ => bind_N (add_N hb _ _) fun _ => bind_N (sub_N hb _ _) fun _ =>
      map_N (add_N hb _ _)

omit hb in
theorem opK_Q {γ : Type} {r r' : Option Nat} {k k' : Nat → Option (Res γ)} (h : N r r')
    (hk : ∀ a, Q (k a) (k' a)) : Q (opK r k) (opK r' k') := by
  unfold opK
  rcases h with h | h
  · left; rw [h]; rfl
  · subst h
    cases r with
    | none => exact Q.refl _
    | some v => exact hk v

theorem addM_Q {γ : Type} {s t : Span} {k k' : Span → Option (Res γ)} (hk : ∀ a, Q (k a) (k' a)) :
    Q (addM b s t k) (addM b' s t k') := by
  unfold addM
  rcases addAssign_N hb s t with h | h
  · left; rw [h]; rfl
  · rw [h]
    cases s.addAssignM b' t with
    | none => exact Q.refl _
    | some v => exact hk v

theorem remM_Q {γ : Type} {d : List ι} {o : Nat} {k k' : Nat → Option (Res γ)} (hk : ∀ a, Q (k a) (k' a)) :
    Q (remM b d o k) (remM b' d o k') := opK_Q (sub_N hb _ _) hk

omit hb in
theorem caseR_Q {α γ : Type} {r r' : Option (Res α)} {k k' : α → Nat → Option (Res γ)}
    {e e' : Error → Nat → Option (Res γ)} (h : Q r r')
    (hk : ∀ a o, Q (k a o) (k' a o)) (he : ∀ a o, Q (e a o) (e' a o)) :
    Q (caseR r k e) (caseR r' k' e') := by
  rcases h with h | h
  · left; rw [h]; rfl
  · subst h
    rcases r with _ | (_ | _ | _)
    · exact Q.refl _
    · exact hk _ _
    · exact he _ _
    · exact Q.refl _

omit hb in
theorem caseO_Q {α γ : Type} {r r' : Option (Out α)} {k k' : α → Option (Res γ)}
    {e e' : Error → Option (Res γ)} (h : Q r r')
    (hk : ∀ a, Q (k a) (k' a)) (he : ∀ a, Q (e a) (e' a)) :
    Q (caseO r k e) (caseO r' k' e') := by
  rcases h with h | h
  · left; rw [h]; rfl
  · subst h
    rcases r with _ | (_ | _ | _)
    · exact Q.refl _
    · exact hk _
    · exact he _
    · exact Q.refl _

omit hb in
theorem ite_Q {γ : Type} [Bad γ] {c : Prop} [Decidable c] {x x' y y' : Option γ} (h : Q x x')
    (h' : Q y y') : Q (if c then x else y) (if c then x' else y') := by
  by_cases hc : c
  · rw [if_pos hc, if_pos hc]; exact h
  · rw [if_neg hc, if_neg hc]; exact h'

theorem origSub_Q (d : List ι) (o len : Nat) :
    Q (some (origSubM b d o len)) (some (origSubM b' d o len)) := by
  unfold origSubM
  rcases add_N hb o len with h | h
  · left; rw [h]; rfl
  · rw [h]; exact Q.refl _

theorem origAt_Q (d : List ι) (o : Nat) : Q (some (origAtM b d o)) (some (origAtM b' d o)) := by
  unfold origAtM
  by_cases hs : Item.strict ι = true
  · simp only [hs, if_true]
    rcases sub_N hb (blen d) o with h | h
    · left; rw [h]; rfl
    · rw [h]
      cases b'.sub (blen d) o with
      | none => exact Q.refl _
      | some l => exact origSub_Q hb d o l
  · simp only [hs]; exact Q.refl _

theorem peek_Q (d : List ι) (o : Nat) : Q (some (peekM b d o)) (some (peekM b' d o)) := by
  unfold peekM
  rcases origAt_Q hb d o with h | h
  · have h := Option.some.inj h
    left; rw [h]; rfl
  · have h := Option.some.inj h
    rw [h]; exact Q.refl _

theorem calcLength_N (beg stop : Option Nat) (rem : Nat) :
    N (calcLengthM b beg stop rem) (calcLengthM b' beg stop rem) := by
  unfold calcLengthM
  cases beg with
  | none => right; rfl
  | some v => exact sub_N hb _ _

theorem spanInc_Q (o len : Nat) : Q (spanIncM b o len) (spanIncM b' o len) :=
  opK_Q (add_N hb _ _) fun _ => Q.refl _

theorem span_Q (o : Nat) {l l' : Option Nat} (h : N l l') : Q (spanM b o l) (spanM b' o l') :=
  opK_Q h fun _ => spanInc_Q hb _ _

theorem check_Q {mt mt' : List ι → Pat ι β → Nat → Option (Res Span)}
    (h : ∀ d p o, Q (mt d p o) (mt' d p o)) (d : List ι) (o : Nat) (c : Cond ι β) (pr : Nat × ι) :
    Q (checkM b mt d o c pr) (checkM b' mt' d o c pr) := by
  cases c with
  | empty => exact Q.refl _
  | fn f => exact Q.refl _
  | regex p =>
    simp only [checkM]
    rcases add_N hb o pr.1 with ha | ha
    · left; rw [ha]; rfl
    · rw [ha]
      cases b'.add o pr.1 with
      | none => exact Q.refl _
      | some a =>
        simp only
        rcases origAt_Q hb d a with h1 | h1
        · have h1 := Option.some.inj h1
          left; rw [h1]; rfl
        · have h1 := Option.some.inj h1
          rw [h1]
          cases origAtM b' d a with
          | err e => exact Q.refl _
          | panic => exact Q.refl _
          | ok d' =>
            simp only
            rcases h d' p 0 with h2 | h2
            · left; rw [h2]; rfl
            · rw [h2]; exact Q.refl _

theorem testItem_Q {mt mt' : List ι → Pat ι β → Nat → Option (Res Span)}
    (h : ∀ d p o, Q (mt d p o) (mt' d p o)) (d : List ι) (o : Nat) (u : Neu ι) (c : Cond ι β)
    (pr : Nat × ι) : Q (testItemM b mt d o u c pr) (testItemM b' mt' d o u c pr) := by
  unfold testItemM
  exact ite_Q (check_Q hb h _ _ _ _) (Q.refl _)

omit hb in
theorem scan_Q {t t' : Nat × ι → Option (Out Bool)} (h : ∀ pr, Q (t pr) (t' pr))
    (more : Nat → Bool) (it : List (Nat × ι)) (cnt : Nat) (beg : Option Nat) :
    Q (scan t more cnt beg it) (scan t' more cnt beg it) := by
  induction it generalizing cnt beg with
  | nil => exact Q.refl _
  | cons pr it ih =>
    simp only [scan]
    refine ite_Q ?_ (Q.refl _)
    rcases h pr with h1 | h1
    · left; rw [h1]; rfl
    · rw [h1]
      rcases t' pr with _ | ((_ | _) | _ | _)
      · exact Q.refl _
      · exact Q.refl _
      · exact ih _ _
      · exact Q.refl _
      · exact Q.refl _

theorem scanM_Q {t t' : Nat × ι → Option (Out Bool)} (h : ∀ pr, Q (t pr) (t' pr))
    (more : Nat → Bool) (it : List (Nat × ι)) (cnt : Nat) (beg : Option Nat) :
    Q (scanM b t more cnt beg it) (scanM b' t' more cnt beg it) := by
  induction it generalizing cnt beg with
  | nil => exact Q.refl _
  | cons pr it ih =>
    simp only [scanM]
    refine ite_Q ?_ (Q.refl _)
    rcases h pr with h1 | h1
    · left; rw [h1]; rfl
    · rw [h1]
      rcases t' pr with _ | ((_ | _) | _ | _)
      · exact Q.refl _
      · exact Q.refl _
      · simp only
        rcases add_N hb cnt 1 with h2 | h2
        · left; rw [h2]; rfl
        · rw [h2]
          cases b'.add cnt 1 with
          | none => exact Q.refl _
          | some c => exact ih _ _
      · exact Q.refl _
      · exact Q.refl _

section Loops
variable {mt mt' : Pat ι β → Nat → Option (Res Span)} (h : ∀ p o, Q (mt p o) (mt' p o))
include h

theorem repM_Q (p : Pat ι β) (more : Nat → Bool) (fin : Nat → Span → Nat → Option (Res Span)) :
    ∀ (n cnt : Nat) (t : Span) (o : Nat),
      Q (repM b mt p more fin n cnt t o) (repM b' mt' p more fin n cnt t o)
  | 0, _, _, _ => Q.refl _
  | n + 1, cnt, t, o => by
    rw [repM, repM]
    exact ite_Q (caseR_Q (h _ _) (fun _ _ => addM_Q hb fun _ => opK_Q (add_N hb _ _) fun _ =>
      repM_Q p more fin n _ _ _) (fun _ _ => Q.refl _)) (Q.refl _)

theorem sepM_Q (p s : Pat ι β) (skip : Bool) (more : Nat → Bool)
    (fin : Nat → Span → Nat → Option (Res Span)) :
    ∀ (n cnt : Nat) (t : Span) (o : Nat),
      Q (sepM b mt p s skip more fin n cnt t o) (sepM b' mt' p s skip more fin n cnt t o)
  | 0, _, _, _ => Q.refl _
  | n + 1, cnt, t, o => by
    rw [sepM, sepM]
    exact ite_Q (caseR_Q (h _ _) (fun _ _ => caseR_Q (h _ _)
      (fun _ _ => opK_Q (add_N hb _ _) fun _ => addM_Q hb fun _ => addM_Q hb fun _ =>
        sepM_Q p s skip more fin n _ _ _)
      (fun _ _ => ite_Q (opK_Q (add_N hb _ _) fun _ => addM_Q hb fun _ => Q.refl _) (Q.refl _)))
      (fun _ _ => Q.refl _)) (Q.refl _)

omit hb in
theorem choice_Q (e : Error) (beg : Nat) : ∀ (l : List (Pat ι β × Option (Val β))) (o : Nat),
    Q (choiceLoop mt e beg l o) (choiceLoop mt' e beg l o)
  | [], _ => Q.refl _
  | it :: items, o => caseR_Q (h _ _) (fun _ _ => Q.refl _) (fun _ _ => choice_Q e beg items _)

omit hb in
theorem ltm_Q (e : Error) (beg : Nat) : ∀ (l : List (Pat ι β × Option (Val β))) (best : Option Span)
    (o : Nat), Q (ltmLoop mt e beg l best o) (ltmLoop mt' e beg l best o)
  | [], none, _ => Q.refl _
  | [], some _, _ => Q.refl _
  | _ :: items, best, _ => by
    rw [ltmLoop, ltmLoop]
    exact caseR_Q (h _ _) (fun _ _ => ltm_Q e beg items _ _) (fun _ _ => ltm_Q e beg items _ _)

end Loops

theorem stepM_Q {mt mt' : List ι → Pat ι β → Nat → Option (Res Span)}
    {pr pr' : Pat ι β → Nat → Option (Res Span)} (hm : ∀ d p o, Q (mt d p o) (mt' d p o))
    (hp : ∀ p o, Q (pr p o) (pr' p o)) (n : Nat) (d : List ι) (p : Pat ι β) (o : Nat) :
    Q (stepM b G n mt pr d p o) (stepM b' G n mt' pr' d p o) := by
  have r {γ : Type} [Bad γ] (x : Option γ) : Q x x := Q.refl x
  have hsp : ∀ (beg stop : Option Nat) (rem : Nat), Q (spanM b o (calcLengthM b beg stop rem))
      (spanM b' o (calcLengthM b' beg stop rem)) := fun _ _ _ => span_Q hb _ (calcLength_N hb _ _ _)
  have ht := fun u c pr => testItem_Q hb hm d o u c pr
  cases p with
  | empty | fail | native _ | dthen _ _ => exact r _
  | start | anchorEnd => exact ite_Q (spanInc_Q hb _ _) (r _)
  | consume _ => exact remM_Q hb fun _ => ite_Q (spanInc_Q hb _ _) (r _)
  | consumeAll => exact spanInc_Q hb _ _
  | lit _ =>
    exact remM_Q hb fun _ => ite_Q (caseO_Q (origAt_Q hb _ _) (fun _ => ite_Q (spanInc_Q hb _ _) (r _))
      (fun _ => r _)) (r _)
  | once u c =>
    refine caseO_Q (peek_Q hb _ _) (fun it => remM_Q hb fun _ => ?_) (fun _ => r _)
    cases it with
    | nil => exact r _
    | cons _ _ => exact caseO_Q (ht _ _ _) (fun _ => ite_Q (hsp _ _ _) (r _)) (fun _ => r _)
  | optU u c =>
    refine remM_Q hb fun _ => caseO_Q (peek_Q hb _ _) (fun it => ?_) (fun _ => r _)
    cases it with
    | nil => exact r _
    | cons _ _ => exact caseO_Q (ht _ _ _) (fun _ => ite_Q (hsp _ _ _) (r _)) (fun _ => r _)
  | many0 u c =>
    refine remM_Q hb fun _ => caseO_Q (peek_Q hb _ _) (fun it =>
      caseO_Q (scan_Q (ht _ _) _ _ _ _) (fun s => ?_) (fun _ => r _)) (fun _ => r _)
    cases s.beg with
    | none => exact r _
    | some v => exact hsp _ _ _
  | many1 u c =>
    refine caseO_Q (peek_Q hb _ _) (fun it => remM_Q hb fun _ =>
      caseO_Q (scan_Q (ht _ _) _ _ _ _) (fun s => ?_) (fun _ => r _)) (fun _ => r _)
    cases s.beg with
    | none => exact r _
    | some v => exact hsp _ _ _
  | between m k u c =>
    exact caseO_Q (peek_Q hb _ _) (fun it => remM_Q hb fun _ => opK_Q (mul_N hb _ _) fun _ => ite_Q
      (caseO_Q (scanM_Q hb (ht _ _) _ _ _ _) (fun _ => ite_Q (hsp _ _ _) (r _)) (fun _ => r _)) (r _))
      (fun _ => r _)
  | times rg u c =>
    refine caseO_Q (peek_Q hb _ _) (fun it => remM_Q hb fun _ => opK_Q ?_ fun _ => ite_Q
      (caseO_Q (scanM_Q hb (ht _ _) _ _ _ _) (fun _ => ite_Q (hsp _ _ _) (r _)) (fun _ => r _)) (r _))
      (fun _ => r _)
    unfold neededM
    cases rg.lo with
    | incl _ => exact mul_N hb _ _
    | excl _ => exact mul_N hb _ _
    | unb => exact .inr rfl
  | thenU u v c =>
    refine caseO_Q (peek_Q hb _ _) (fun it => remM_Q hb fun _ => opK_Q (add_N hb _ _) fun _ => ite_Q ?_ (r _))
      (fun _ => r _)
    match it with
    | [] => exact r _
    | [_] => exact r _
    | fst :: snd :: it' =>
      exact caseO_Q (ht _ _ _) (fun _ => ite_Q
        (caseO_Q (ht _ _ _) (fun _ => ite_Q (hsp _ _ _) (r _)) (fun _ => r _)) (r _)) (fun _ => r _)
  | thn x y | pre x y | suf x y =>
    exact caseR_Q (hm _ _ _) (fun _ _ => caseR_Q (hm _ _ _) (fun _ _ => addM_Q hb fun _ => r _)
      (fun _ _ => r _)) (fun _ _ => r _)
  | ifThen x t y | enclose x t y =>
    exact caseR_Q (hm _ _ _) (fun _ _ => caseR_Q (hm _ _ _)
      (fun _ _ => addM_Q hb fun _ => caseR_Q (hm _ _ _) (fun _ _ => addM_Q hb fun _ => r _)
        (fun _ _ => r _)) (fun _ _ => r _)) (fun _ _ => r _)
  | sepOnce x y z =>
    exact caseR_Q (hm _ _ _) (fun _ _ => addM_Q hb fun _ => caseR_Q (hm _ _ _)
      (fun _ _ => addM_Q hb fun _ => caseR_Q (hm _ _ _) (fun _ _ => addM_Q hb fun _ => r _)
        (fun _ _ => r _)) (fun _ _ => r _)) (fun _ _ => r _)
  | longest x y =>
    have hk : ∀ s : Span, Q (opK (b.add o s.len) fun o' => some (.ok s o'))
        (opK (b'.add o s.len) fun o' => some (.ok s o')) := fun _ => opK_Q (add_N hb _ _) fun _ => r _
    exact caseR_Q (hm _ _ _) (fun _ _ => caseR_Q (hm _ _ _) (fun _ _ => ite_Q (hk _) (hk _))
      (fun _ _ => hk _)) (fun _ _ => caseR_Q (hm _ _ _) (fun _ _ => hk _) (fun _ _ => r _))
  | rep q r => exact repM_Q hb (hm d) _ _ _ n 0 _ o
  | rep2 q m k => exact repM_Q hb (hm d) _ _ _ n 0 _ o
  | collect q min => exact repM_Q hb (hm d) _ _ _ n 0 _ o
  | sep q s skip min => exact sepM_Q hb (hm d) _ _ _ _ _ n 0 _ o
  | sep2 q s skip m k => exact sepM_Q hb (hm d) _ _ _ _ _ n 0 _ o
  | sepCollect q s skip min => exact sepM_Q hb (hm d) _ _ _ _ _ n 0 _ o
  | assert q v => exact caseR_Q (hm _ _ _) (fun _ _ => r _) (fun _ _ => r _)
  | or x y =>
    exact caseR_Q (hm _ _ _) (fun _ _ => r _) (fun _ _ => caseR_Q (hm _ _ _) (fun _ _ => r _)
      (fun _ _ => r _))
  | opt q => exact caseR_Q (hm _ _ _) (fun _ _ => r _) (fun _ _ => r _)
  | choice e l => exact choice_Q (hm d) _ _ _ _
  | ltm e l => exact ltm_Q (hm d) _ _ _ _ _
  | branch t x y =>
    exact caseO_Q (r _) (fun _ => caseR_Q (hm _ _ _) (fun _ _ => r _) (fun _ _ => r _)) (fun _ => r _)
  | map q f => exact hm _ _ _
  | pat q => exact hm _ _ _
  | build q f =>
    exact caseR_Q (hm _ _ _) (fun _ _ => caseR_Q (r _) (fun _ _ => caseR_Q (hm _ _ _) (fun _ _ => r _)
      (fun _ _ => r _)) (fun _ _ => r _)) (fun _ _ => r _)
  | cell i =>
    simp only [stepM, step]
    cases G i with
    | none => exact r _
    | some q => exact hp _ _

omit hb in
theorem matWith_Q {pr pr' : Option (Pat ι β) → List ι → Pat ι β → Nat → Option (Res Span)}
    (h : ∀ pol d p o, Q (pr pol d p o) (pr' pol d p o)) (pol : Option (Pat ι β))
    (d : List ι) (p : Pat ι β) (o : Nat) :
    Q (matWith pr pol d p o) (matWith pr' pol d p o) := by
  cases pol with
  | none => exact h _ _ _ _
  | some q => exact caseR_Q (h _ _ _ _) (fun _ _ => h _ _ _ _) (fun _ _ => Q.refl _)

theorem parseM_Q : ∀ (n : Nat) (pol : Option (Pat ι β)) (d : List ι) (p : Pat ι β) (o : Nat),
    Q (parseM b G n pol d p o) (parseM b' G n pol d p o)
  | 0, _, _, _, _ => Q.refl _
  | n + 1, pol, d, p, o =>
    stepM_Q hb (matWith_Q (parseM_Q n) pol) (parseM_Q n pol d) n d p o

theorem tryMatM_Q (n : Nat) (pol : Option (Pat ι β)) (d : List ι) (p : Pat ι β) (o : Nat) :
    Q (tryMatM b G n pol d p o) (tryMatM b' G n pol d p o) :=
  matWith_Q (parseM_Q hb n) pol d p o

/-! ## Building values -/

omit hb

theorem caseC_Q {α γ : Type} {r r' : Option (CRes σ α)} {k k' : α → σ → Nat → Option (CRes σ γ)}
    {e e' : Error → σ → Nat → Option (CRes σ γ)} (h : Q r r')
    (hk : ∀ a st o, Q (k a st o) (k' a st o)) (he : ∀ a st o, Q (e a st o) (e' a st o)) :
    Q (caseC r k e) (caseC r' k' e') := by
  rcases h with h | h
  · left; rw [h]; rfl
  · subst h
    rcases r with _ | (_ | _ | _)
    · exact Q.refl _
    · exact hk _ _ _
    · exact he _ _ _
    · exact Q.refl _

theorem caseM_Q {α γ : Type} {r r' : Option (Res α)} {k k' : α → Nat → Option (CRes σ γ)}
    {e e' : Error → Nat → Option (CRes σ γ)} (h : Q r r')
    (hk : ∀ a o, Q (k a o) (k' a o)) (he : ∀ a o, Q (e a o) (e' a o)) :
    Q (caseM r k e) (caseM r' k' e') := by
  rcases h with h | h
  · left; rw [h]; rfl
  · subst h
    rcases r with _ | (_ | _ | _)
    · exact Q.refl _
    · exact hk _ _
    · exact he _ _
    · exact Q.refl _

theorem caseT_Q {α γ : Type} {r : Out α} {k k' : α → Option (CRes σ γ)}
    {e e' : Error → Option (CRes σ γ)} (hk : ∀ a, Q (k a) (k' a)) (he : ∀ a, Q (e a) (e' a)) :
    Q (caseT r k e) (caseT r k' e') := by
  cases r
  · exact hk _
  · exact he _
  · exact Q.refl _

/-- The handler of the first build panics, or both handlers answer the same. -/
def HandlerQ (H H' : Handler ι β σ) : Prop :=
  ∀ (d : List ι) (o : Nat) (s : Span) (st : σ), (H d o s st).1 = .panic ∨ H d o s st = H' d o s st

theorem invokeK_Q {H H' : Handler ι β σ} (hH : HandlerQ H H') {d : List ι} {st : σ}
    {r r' : Option (Res Span)} (h : Q r r') : Q (invokeK H d st r) (invokeK H' d st r') := by
  refine caseM_Q h (fun s o => ?_) (fun _ _ => Q.refl _)
  rcases hH d o s st with h | h
  · left
    generalize H d o s st = x at h
    obtain ⟨x1, x2⟩ := x
    simp only at h
    subst h
    rfl
  · rw [h]; exact Q.refl _

include hb in
theorem countK_Q {γ : Type} {cnt : Nat} {k k' : Nat → Option (CRes σ γ)} (hk : ∀ a, Q (k a) (k' a)) :
    Q (countK b cnt k) (countK b' cnt k') := by
  unfold countK
  rcases add_N hb cnt 1 with h | h
  · left; rw [h]; rfl
  · rw [h]
    cases b'.add cnt 1 with
    | none => exact Q.refl _
    | some v => exact hk v

section Loops

variable {cn cn' : Pat ι β → σ → Nat → Option (CRes σ (Val β))} {ms ms' : Nat → Option (Res Span)}
  (h : ∀ p st o, Q (cn p st o) (cn' p st o))
include h

theorem conChoice_Q (e : Error) (beg : Nat) : ∀ (l : List (Pat ι β × Option (Val β))) (st : σ) (o : Nat),
    Q (conChoice cn e beg l st o) (conChoice cn' e beg l st o)
  | [], _, _ => Q.refl _
  | it :: items, st, o => by
    rw [conChoice, conChoice]
    exact caseC_Q (h _ _ _) (fun _ _ _ => Q.refl _) (fun _ _ _ => conChoice_Q e beg items _ _)

theorem conLtm_Q (e : Error) (beg : Nat) : ∀ (l : List (Pat ι β × Option (Val β)))
    (best : Option (Val β)) (stop : Nat) (st : σ) (o : Nat),
    Q (conLtm cn e beg l best stop st o) (conLtm cn' e beg l best stop st o)
  | [], none, _, _, _ => Q.refl _
  | [], some _, _, _, _ => Q.refl _
  | it :: items, best, stop, st, o => by
    rw [conLtm, conLtm]
    exact caseC_Q (h _ _ _) (fun _ _ _ => ite_Q (conLtm_Q e beg items _ _ _ _)
      (conLtm_Q e beg items _ _ _ _)) (fun _ _ _ => conLtm_Q e beg items _ _ _ _)

include hb in
theorem conRepM_Q (p : Pat ι β) (more room : Nat → Bool)
    (fin : Nat → List (Val β) → σ → Nat → Option (CRes σ (Val β))) :
    ∀ (n cnt : Nat) (vals : List (Val β)) (st : σ) (o : Nat),
      Q (conRepM b cn p more room fin n cnt vals st o) (conRepM b' cn' p more room fin n cnt vals st o)
  | 0, _, _, _, _ => Q.refl _
  | n + 1, cnt, vals, st, o => by
    rw [conRepM, conRepM]
    exact ite_Q (caseC_Q (h _ _ _) (fun _ _ _ => ite_Q (countK_Q hb fun _ =>
      conRepM_Q p more room fin n _ _ _ _) (Q.refl _)) (fun _ _ _ => Q.refl _)) (Q.refl _)

variable (hs : ∀ o, Q (ms o) (ms' o))
include hs

theorem conSep_Q (p : Pat ι β) (skip : Bool) (more room : Nat → Bool)
    (fin : Nat → List (Val β) → σ → Nat → Option (CRes σ (Val β))) :
    ∀ (n cnt : Nat) (vals : List (Val β)) (st : σ) (o : Nat),
      Q (conSep cn ms p skip more room fin n cnt vals st o)
        (conSep cn' ms' p skip more room fin n cnt vals st o)
  | 0, _, _, _, _ => Q.refl _
  | n + 1, cnt, vals, st, o => by
    rw [conSep, conSep]
    exact ite_Q (caseC_Q (h _ _ _) (fun _ _ _ => caseM_Q (hs _)
      (fun _ _ => ite_Q (conSep_Q p skip more room fin n _ _ _ _) (Q.refl _))
      (fun _ _ => Q.refl _)) (fun _ _ _ => Q.refl _)) (Q.refl _)

include hb in
theorem conSepM_Q (p : Pat ι β) (skip : Bool) (more room : Nat → Bool)
    (fin : Nat → List (Val β) → σ → Nat → Option (CRes σ (Val β))) :
    ∀ (n cnt : Nat) (vals : List (Val β)) (st : σ) (o : Nat),
      Q (conSepM b cn ms p skip more room fin n cnt vals st o)
        (conSepM b' cn' ms' p skip more room fin n cnt vals st o)
  | 0, _, _, _, _ => Q.refl _
  | n + 1, cnt, vals, st, o => by
    rw [conSepM, conSepM]
    exact ite_Q (caseC_Q (h _ _ _) (fun _ _ _ => caseM_Q (hs _)
      (fun _ _ => ite_Q (countK_Q hb fun _ => conSepM_Q p skip more room fin n _ _ _ _) (Q.refl _))
      (fun _ _ => ite_Q (ite_Q (countK_Q hb fun _ => Q.refl _) (Q.refl _)) (Q.refl _)))
      (fun _ _ _ => Q.refl _)) (Q.refl _)

include hb in
theorem conSepCollectM_Q (p : Pat ι β) (skip : Bool)
    (fin : Nat → List (Val β) → σ → Nat → Option (CRes σ (Val β))) :
    ∀ (n : Nat) (ended : Bool) (cnt : Nat) (vals : List (Val β)) (st : σ) (o : Nat),
      Q (conSepCollectM b cn ms p skip fin n ended cnt vals st o)
        (conSepCollectM b' cn' ms' p skip fin n ended cnt vals st o)
  | 0, _, _, _, _, _ => Q.refl _
  | n + 1, ended, cnt, vals, st, o => by
    rw [conSepCollectM, conSepCollectM]
    exact caseC_Q (h _ _ _) (fun _ _ _ => caseM_Q (hs _)
      (fun _ _ => ite_Q (Q.refl _) (countK_Q hb fun _ => conSepCollectM_Q p skip fin n _ _ _ _ _))
      (fun _ _ => ite_Q (Q.refl _) (ite_Q (countK_Q hb fun _ => conSepCollectM_Q p skip fin n _ _ _ _ _)
        (Q.refl _)))) (fun _ _ _ => Q.refl _)

end Loops

include hb in
theorem conStepM_Q {H H' : Handler ι β σ} (hH : HandlerQ H H')
    {mt mt' : Pat ι β → Nat → Option (Res Span)}
    {leaf leaf' : Option (Res Span)} {cn cn' : Pat ι β → σ → Nat → Option (CRes σ (Val β))}
    (hm : ∀ p o, Q (mt p o) (mt' p o)) (hl : Q leaf leaf')
    (hc : ∀ p st o, Q (cn p st o) (cn' p st o)) (n : Nat) (d : List ι)
    (p : Pat ι β) (st : σ) (o : Nat) :
    Q (conStepM b G H n mt leaf cn d p st o) (conStepM b' G H' n mt' leaf' cn' d p st o) := by
  have r {γ : Type} [Bad γ] (x : Option γ) : Q x x := Q.refl x
  cases p with
  | empty | fail | start | anchorEnd | consume _ | consumeAll | lit _ | native _ | once _ _ | optU _ _
  | many0 _ _ | many1 _ _ | between _ _ _ _ | times _ _ _ | thenU _ _ _ | assert _ _ | build _ _ =>
    exact invokeK_Q hH hl
  | pat q => exact invokeK_Q hH (hm _ _)
  | thn x y =>
    exact caseC_Q (hc _ _ _) (fun _ _ _ => caseC_Q (hc _ _ _) (fun _ _ _ => r _)
      (fun _ _ _ => r _)) (fun _ _ _ => r _)
  | ifThen x y z =>
    exact caseC_Q (hc _ _ _) (fun _ _ _ => caseM_Q (hm _ _)
      (fun _ _ => caseC_Q (hc _ _ _) (fun _ _ _ => r _) (fun _ _ _ => r _))
      (fun _ _ => r _)) (fun _ _ _ => r _)
  | pre x y =>
    exact caseM_Q (hm _ _) (fun _ _ => caseC_Q (hc _ _ _) (fun _ _ _ => r _)
      (fun _ _ _ => r _)) (fun _ _ => r _)
  | suf x y =>
    exact caseC_Q (hc _ _ _) (fun _ _ _ => caseM_Q (hm _ _) (fun _ _ => r _)
      (fun _ _ => r _)) (fun _ _ _ => r _)
  | enclose x y z =>
    exact caseM_Q (hm _ _) (fun _ _ => caseC_Q (hc _ _ _)
      (fun _ _ _ => caseM_Q (hm _ _) (fun _ _ => r _) (fun _ _ => r _))
      (fun _ _ _ => r _)) (fun _ _ => r _)
  | sepOnce x y z =>
    exact caseC_Q (hc _ _ _) (fun _ _ _ => caseM_Q (hm _ _)
      (fun _ _ => caseC_Q (hc _ _ _) (fun _ _ _ => r _) (fun _ _ _ => r _))
      (fun _ _ => r _)) (fun _ _ _ => r _)
  | or x y =>
    exact caseC_Q (hc _ _ _) (fun _ _ _ => r _) (fun _ _ _ => caseC_Q (hc _ _ _)
      (fun _ _ _ => r _) (fun _ _ _ => r _))
  | longest x y =>
    exact caseC_Q (hc _ _ _) (fun _ _ _ => caseC_Q (hc _ _ _)
      (fun _ _ _ => r _) (fun _ _ _ => r _)) (fun _ _ _ => caseC_Q (hc _ _ _)
      (fun _ _ _ => r _) (fun _ _ _ => r _))
  | opt q => exact caseC_Q (hc _ _ _) (fun _ _ _ => r _) (fun _ _ _ => r _)
  | choice e l => exact conChoice_Q hc _ _ _ _ _
  | ltm e l => exact conLtm_Q hc _ _ _ _ _ _ _
  | rep q rg => exact conRepM_Q hb hc _ _ _ _ n 0 [] st o
  | rep2 q m k => exact conRepM_Q hb hc _ _ _ _ n 0 [] st o
  | collect q m => exact conRepM_Q hb hc _ _ _ _ n 0 [] st o
  | sep q s k m => exact conSep_Q hc (hm s) _ _ _ _ _ n 0 [] st o
  | sep2 q s k m l => exact conSepM_Q hb hc (hm s) _ _ _ _ _ n 0 [] st o
  | sepCollect q s k m => exact conSepCollectM_Q hb hc (hm s) _ _ _ n false 0 [] st o
  | branch t x y =>
    exact caseT_Q (fun _ => caseC_Q (hc _ _ _) (fun _ _ _ => r _) (fun _ _ _ => r _)) (fun _ => r _)
  | map q f => exact caseC_Q (hc _ _ _) (fun _ _ _ => r _) (fun _ _ _ => r _)
  | dthen q f =>
    exact caseC_Q (hc _ _ _) (fun _ _ _ => caseM_Q (r _) (fun _ _ => caseC_Q (hc _ _ _)
      (fun _ _ _ => r _) (fun _ _ _ => r _)) (fun _ _ => r _)) (fun _ _ _ => r _)
  | cell i =>
    simp only [conStepM, conStep]
    cases G i with
    | none => exact r _
    | some q => exact hc _ _ _

include hb in
theorem conM_Q {H H' : Handler ι β σ} (hH : HandlerQ H H') :
    ∀ (n : Nat) (pol : Option (Pat ι β)) (d : List ι) (p : Pat ι β) (st : σ) (o : Nat),
    Q (conM b G H n pol d p st o) (conM b' G H' n pol d p st o)
  | 0, _, _, _, _, _ => Q.refl _
  | n + 1, pol, d, p, st, o =>
    conStepM_Q hb hH (tryMatM_Q hb n pol d) (tryMatM_Q hb _ pol d p o) (conM_Q hH n pol d) n d p st o

include hb in
theorem extract_Q : HandlerQ (extractM (ι := ι) (σ := σ) b) (extractM b') := by
  intro d o s st
  rcases origSub_Q hb d s.beg s.len with h | h
  · left; exact Option.some.inj h
  · right
    have h := Option.some.inj h
    simp only [extractM, h]

end Debug

end Neure
