import Verif.Log
import Verif.MachineDebug
import Verif.Sub
/-!
# Logging: helper lemmas
-/

namespace Neure

set_option linter.unusedSectionVars false
set_option linter.unusedSimpArgs false

variable {ι β σ : Type} [Item ι] {b : Build} {G : Rules ι β}

/-- A closure given to the library leaves the context where it found it or further on. -/
def Onward : Pat ι β → Prop
  | .native f => ∀ d o, (∀ s o', f d o = .ok s o' → o ≤ o') ∧ (∀ e o', f d o = .err e o' → o ≤ o')
  | .build _ f =>
    ∀ d o s, (∀ p o', f d o s = .ok p o' → o ≤ o') ∧ (∀ e o', f d o s = .err e o' → o ≤ o')
  | .dthen _ f =>
    ∀ d o v, (∀ p o', f d o v = .ok p o' → o ≤ o') ∧ (∀ e o', f d o v = .err e o' → o ≤ o')
  | _ => True

namespace Log

open Debug

/-! ## Logging panics or changes nothing -/

theorem Q_trans {γ : Type} [Bad γ] {x y z : Option γ} (h : Q x y) (h' : Q y z) : Q x z := by
  rcases h with h | h
  · exact .inl h
  · subst h; exact h'

theorem reval_Q {γ : Type} {beg stop : Nat} {r : CRes σ γ} : Q (reval b beg stop r) (some r) := by
  unfold reval
  cases b.sub stop beg with
  | none => exact .inl rfl
  | some _ => exact Q.refl _

theorem revalEnd_Q {γ : Type} {beg : Nat} {r : Option (CRes σ γ)} : Q (revalEnd b beg r) r := by
  rcases r with _ | (_ | _ | _)
  · exact Q.refl _
  · exact reval_Q
  · exact reval_Q
  · exact Q.refl _

theorem stricter_refl (b : Build) : b.Stricter b := ⟨id, id⟩

theorem handlerQ_refl (H : Handler ι β σ) : HandlerQ H H := fun _ _ _ _ => .inr rfl

theorem conStepLog_Q {H : Handler ι β σ} {mt : Pat ι β → Nat → Option (Res Span)}
    {leaf : Option (Res Span)} {cn cn' : Pat ι β → σ → Nat → Option (CRes σ (Val β))}
    (hc : ∀ p st o, Q (cn p st o) (cn' p st o)) (n : Nat) (d : List ι) (p : Pat ι β) (st : σ) (o : Nat) :
    Q (conStepLog b G H n mt leaf cn d p st o) (conStepM b G H n mt leaf cn' d p st o) := by
  have r {γ : Type} [Bad γ] (x : Option γ) : Q x x := Q.refl x
  have gen := conStepM_Q (G := G) (stricter_refl b) (handlerQ_refl H) (mt := mt) (mt' := mt)
    (leaf := leaf) (leaf' := leaf) (fun _ _ => r _) (r _) hc n d p st o
  cases p with
  | thn x y =>
    exact caseC_Q (hc _ _ _) (fun _ _ _ => caseC_Q (hc _ _ _) (fun _ _ _ => reval_Q)
      (fun _ _ _ => reval_Q)) (fun _ _ _ => reval_Q)
  | ifThen x y z =>
    exact caseC_Q (hc _ _ _) (fun _ _ _ => caseM_Q (r _)
      (fun _ _ => caseC_Q (hc _ _ _) (fun _ _ _ => reval_Q) (fun _ _ _ => r _))
      (fun _ _ => reval_Q)) (fun _ _ _ => r _)
  | pre x y =>
    exact caseM_Q (r _) (fun _ _ => caseC_Q (hc _ _ _) (fun _ _ _ => reval_Q)
      (fun _ _ _ => reval_Q)) (fun _ _ => r _)
  | suf x y =>
    exact caseC_Q (hc _ _ _) (fun _ _ _ => caseM_Q (r _) (fun _ _ => reval_Q)
      (fun _ _ => r _)) (fun _ _ _ => reval_Q)
  | enclose x y z =>
    exact caseM_Q (r _) (fun _ _ => caseC_Q (hc _ _ _)
      (fun _ _ _ => caseM_Q (r _) (fun _ _ => reval_Q) (fun _ _ => r _))
      (fun _ _ _ => r _)) (fun _ _ => r _)
  | sepOnce x y z =>
    exact caseC_Q (hc _ _ _) (fun _ _ _ => caseM_Q (r _)
      (fun _ _ => caseC_Q (hc _ _ _) (fun _ _ _ => reval_Q) (fun _ _ _ => r _))
      (fun _ _ => r _)) (fun _ _ _ => r _)
  | branch t x y =>
    exact caseT_Q (fun _ => Q_trans revalEnd_Q (caseC_Q (hc _ _ _) (fun _ _ _ => r _) (fun _ _ _ => r _)))
      (fun _ => r _)
  | dthen q f =>
    exact caseC_Q (hc _ _ _) (fun _ _ _ => caseM_Q (r _) (fun _ _ => caseC_Q (hc _ _ _)
      (fun _ _ _ => reval_Q) (fun _ _ _ => r _)) (fun _ _ => r _)) (fun _ _ _ => r _)
  | or _ _ | longest _ _ | opt _ | choice _ _ | ltm _ _ | rep _ _ | rep2 _ _ _ | collect _ _
  | sep _ _ _ _ | sep2 _ _ _ _ _ | sepCollect _ _ _ _ => exact Q_trans revalEnd_Q gen
  | _ => exact gen

theorem conLog_Q {H : Handler ι β σ} :
    ∀ (n : Nat) (pol : Option (Pat ι β)) (d : List ι) (p : Pat ι β) (st : σ) (o : Nat),
    Q (conLog b G H n pol d p st o) (conM b G H n pol d p st o)
  | 0, _, _, _, _, _ => Q.refl _
  | n + 1, pol, d, p, st, o => conStepLog_Q (conLog_Q n pol d) n d p st o

/-! ## Without overflow checks it changes nothing -/

theorem reval_off (hb : b.overflowChecks = false) {γ : Type} {beg stop : Nat} {r : CRes σ γ} :
    reval b beg stop r = some r := by
  unfold reval Build.sub
  by_cases h : beg ≤ stop
  · simp [h]
  · simp [h, hb]

theorem revalEnd_off (hb : b.overflowChecks = false) {γ : Type} {beg : Nat} {r : Option (CRes σ γ)} :
    revalEnd b beg r = r := by
  rcases r with _ | (_ | _ | _)
  · rfl
  · exact reval_off hb
  · exact reval_off hb
  · rfl

theorem conStepLog_off (hb : b.overflowChecks = false) {H : Handler ι β σ}
    {mt : Pat ι β → Nat → Option (Res Span)}
    {leaf : Option (Res Span)} {cn : Pat ι β → σ → Nat → Option (CRes σ (Val β))}
    (n : Nat) (d : List ι) (p : Pat ι β) (st : σ) (o : Nat) :
    conStepLog b G H n mt leaf cn d p st o = conStepM b G H n mt leaf cn d p st o := by
  cases p <;> simp only [conStepLog, conStepM, conStep, reval_off hb, revalEnd_off hb]

theorem conLog_off (hb : b.overflowChecks = false) {H : Handler ι β σ} :
    ∀ (n : Nat) (pol : Option (Pat ι β)) (d : List ι),
    conLog b G H n pol d = conM b G H n pol d
  | 0, _, _ => rfl
  | n + 1, pol, d => by
    funext p st o
    simp only [conLog, conM, conLog_off hb n pol d]
    exact conStepLog_off hb n d p st o

/-! ## Matching moves forward, in a build with overflow checks -/

/-- A finished match stopped at `o` or later. -/
def Fw {α : Type} (o : Nat) (x : Option (Res α)) : Prop :=
  (∀ a o', x = some (.ok a o') → o ≤ o') ∧ (∀ e o', x = some (.err e o') → o ≤ o')

theorem Fw.ok {α : Type} {o o' : Nat} {a : α} (h : o ≤ o') : Fw o (some (.ok a o')) :=
  ⟨fun _ _ he => (by cases he; exact h), fun _ _ he => by cases he⟩

theorem Fw.err {α : Type} {o o' : Nat} {e : Error} (h : o ≤ o') : Fw (α := α) o (some (.err e o')) :=
  ⟨fun _ _ he => (nomatch he), fun _ _ he => by cases he; exact h⟩

theorem Fw.panic {α : Type} {o : Nat} : Fw (α := α) o (some .panic) :=
  ⟨fun _ _ he => (nomatch he), fun _ _ he => by cases he⟩

theorem Fw.none {α : Type} {o : Nat} : Fw (α := α) o Option.none :=
  ⟨fun _ _ he => (nomatch he), fun _ _ he => by cases he⟩

theorem Fw.mono {α : Type} {o o1 : Nat} {x : Option (Res α)} (h : o ≤ o1) (hx : Fw o1 x) : Fw o x :=
  ⟨fun _ _ he => Nat.le_trans h (hx.1 _ _ he), fun _ _ he => Nat.le_trans h (hx.2 _ _ he)⟩

theorem fw_caseR {α γ : Type} {o o1 : Nat} {x : Option (Res α)} {k : α → Nat → Option (Res γ)}
    {e : Error → Nat → Option (Res γ)} (hx : Fw o1 x) (hk : ∀ a o', o1 ≤ o' → Fw o (k a o'))
    (he : ∀ a o', o1 ≤ o' → Fw o (e a o')) : Fw o (caseR x k e) := by
  rcases x with _ | (⟨a, o'⟩ | ⟨er, o'⟩ | _)
  · exact .none
  · exact hk _ _ (hx.1 _ _ rfl)
  · exact he _ _ (hx.2 _ _ rfl)
  · exact .panic

theorem fw_caseO {α γ : Type} {o : Nat} {x : Option (Out α)} {k : α → Option (Res γ)}
    {e : Error → Option (Res γ)} (hk : ∀ a, Fw o (k a)) (he : ∀ a, Fw o (e a)) : Fw o (caseO x k e) := by
  rcases x with _ | (a | er | _)
  · exact .none
  · exact hk _
  · exact he _
  · exact .panic

theorem fw_opK {γ : Type} {o : Nat} {x : Option Nat} {k : Nat → Option (Res γ)}
    (hk : ∀ a, x = some a → Fw o (k a)) : Fw o (opK x k) := by
  cases x with
  | none => exact .panic
  | some a => exact hk _ rfl

theorem fw_addM {γ : Type} {o : Nat} {s t : Span} {k : Span → Option (Res γ)} (hk : ∀ a, Fw o (k a)) :
    Fw o (addM b s t k) := by
  unfold addM
  cases s.addAssignM b t with
  | none => exact .panic
  | some v => exact hk v

theorem fw_ite {γ : Type} {o : Nat} {c : Prop} [Decidable c] {x y : Option (Res γ)} (hx : Fw o x)
    (hy : Fw o y) : Fw o (if c then x else y) := by
  by_cases hc : c
  · rw [if_pos hc]; exact hx
  · rw [if_neg hc]; exact hy

theorem fw_finish {ok : Nat → Bool} {e : Error} {beg cnt : Nat} {t : Span} {o o' : Nat} (h : o ≤ o')
    (hb : o ≤ beg) : Fw o (finish ok e beg cnt t o') := by
  unfold finish
  exact fw_ite (.ok h) (.err hb)

section Checked

variable (hb : b.overflowChecks = true)
include hb

theorem add_le {x y z : Nat} (h : b.add x y = some z) : x ≤ z := by
  unfold Build.add at h
  by_cases hc : x + y < wordSize
  · simp only [hc, if_true, Option.some.injEq] at h; omega
  · simp [hc, hb] at h

theorem fw_inc {o len : Nat} : Fw o (spanIncM b o len) :=
  fw_opK fun _ h => .ok (add_le hb h)

theorem fw_span {o : Nat} {len : Option Nat} : Fw o (spanM b o len) := fw_opK fun _ _ => fw_inc hb

omit hb in
theorem fw_rep {mt : Pat ι β → Nat → Option (Res Span)} {p : Pat ι β} (hp : ∀ o, Fw o (mt p o))
    {more : Nat → Bool} {ok : Nat → Bool} {e : Error} {beg : Nat} :
    ∀ (n cnt : Nat) (t : Span) (o : Nat), beg ≤ o →
      Fw beg (repM b mt p more (finish ok e beg) n cnt t o)
  | 0, _, _, _, _ => .none
  | n + 1, cnt, t, o, h => by
    rw [repM]
    exact fw_ite (fw_caseR (hp _) (fun _ o' h' => fw_addM fun _ => fw_opK fun _ _ =>
      fw_rep hp n _ _ _ (Nat.le_trans h h')) (fun _ o' h' => fw_finish (Nat.le_trans h h') (Nat.le_refl _)))
      (fw_finish h (Nat.le_refl _))

omit hb in
theorem fw_sep {mt : Pat ι β → Nat → Option (Res Span)} {p s : Pat ι β} (hp : ∀ o, Fw o (mt p o))
    (hs : ∀ o, Fw o (mt s o)) {skip : Bool}
    {more : Nat → Bool} {ok : Nat → Bool} {e : Error} {beg : Nat} :
    ∀ (n cnt : Nat) (t : Span) (o : Nat), beg ≤ o →
      Fw beg (sepM b mt p s skip more (finish ok e beg) n cnt t o)
  | 0, _, _, _, _ => .none
  | n + 1, cnt, t, o, h => by
    rw [sepM]
    have fin : ∀ {c t o'}, beg ≤ o' → Fw beg (finish ok e beg c t o') :=
      fun h => fw_finish h (Nat.le_refl _)
    exact fw_ite (fw_caseR (hp _) (fun _ o' h' => fw_caseR (hs _)
      (fun _ o2 h2 => fw_opK fun _ _ => fw_addM fun _ => fw_addM fun _ =>
        fw_sep hp hs n _ _ _ (by omega))
      (fun _ o2 h2 => fw_ite (fw_opK fun _ _ => fw_addM fun _ => fin (by omega)) (fin (by omega))))
      (fun _ o' h' => fin (by omega))) (fin h)

omit hb in
theorem fw_choice {mt : Pat ι β → Nat → Option (Res Span)} {e : Error} {beg : Nat} :
    ∀ (l : List (Pat ι β × Option (Val β))) (o : Nat), beg ≤ o → (∀ it ∈ l, ∀ o, Fw o (mt it.1 o)) →
      Fw beg (choiceLoop mt e beg l o)
  | [], _, h, _ => .err h
  | it :: l, o, h, hl => fw_caseR (hl it (by simp) o) (fun _ _ h' => .ok (Nat.le_trans h h'))
      (fun _ _ _ => fw_choice l beg (Nat.le_refl _) fun i hi => hl i (by simp [hi]))

omit hb in
theorem fw_ltm {mt : Pat ι β → Nat → Option (Res Span)} {e : Error} {beg : Nat} :
    ∀ (l : List (Pat ι β × Option (Val β))) (best : Option Span) (o : Nat), beg ≤ o →
      (∀ it ∈ l, ∀ o, Fw o (mt it.1 o)) → Fw beg (ltmLoop mt e beg l best o)
  | [], none, _, h, _ => .err h
  | [], some _, _, h, _ => .ok h
  | it :: l, best, o, h, hl => by
    rw [ltmLoop]
    exact fw_caseR (hl it (by simp) beg)
      (fun _ _ h' => fw_ltm l _ _ h' fun i hi => hl i (by simp [hi]))
      (fun _ _ h' => fw_ltm l _ _ h' fun i hi => hl i (by simp [hi]))

theorem fw_step {mt : List ι → Pat ι β → Nat → Option (Res Span)} {pr : Pat ι β → Nat → Option (Res Span)}
    {p : Pat ι β} (hself : Onward p) (hm : ∀ q, Child G q p → ∀ d o, Fw o (mt d q o))
    (hp : ∀ q, Child G q p → ∀ o, Fw o (pr q o)) (n : Nat) (d : List ι) (o : Nat) :
    Fw o (stepM b G n mt pr d p o) := by
  have le := Nat.le_refl o
  cases p with
  | empty => exact .ok le
  | fail => exact .err le
  | native f =>
    have h := hself d o
    simp only [stepM, step]
    exact ⟨fun a o' he => h.1 _ _ (Option.some.inj he), fun a o' he => h.2 _ _ (Option.some.inj he)⟩
  | dthen _ _ => exact .panic
  | start => exact fw_ite (fw_inc hb) (.err le)
  | anchorEnd => exact fw_ite (fw_inc hb) (.err le)
  | consume _ => exact fw_opK fun _ _ => fw_ite (fw_inc hb) (.err le)
  | consumeAll => exact fw_inc hb
  | lit _ =>
    exact fw_opK fun _ _ => fw_ite (fw_caseO (fun _ => fw_ite (fw_inc hb) (.err le)) (fun _ => .err le))
      (.err le)
  | once u c =>
    refine fw_caseO (fun it => fw_opK fun _ _ => ?_) (fun _ => .err le)
    cases it with
    | nil => exact .err le
    | cons _ _ => exact fw_caseO (fun _ => fw_ite (fw_span hb) (.err le)) (fun _ => .err le)
  | optU u c =>
    refine fw_opK fun _ _ => fw_caseO (fun it => ?_) (fun _ => .ok le)
    cases it with
    | nil => exact .ok le
    | cons _ _ => exact fw_caseO (fun _ => fw_ite (fw_span hb) (.ok le)) (fun _ => .err le)
  | many0 u c =>
    refine fw_opK fun _ _ => fw_caseO (fun it => fw_caseO (fun s => ?_) (fun _ => .err le)) (fun _ => .ok le)
    cases s.beg with
    | none => exact .ok le
    | some v => exact fw_span hb
  | many1 u c =>
    refine fw_caseO (fun it => fw_opK fun _ _ => fw_caseO (fun s => ?_) (fun _ => .err le)) (fun _ => .err le)
    cases s.beg with
    | none => exact .err le
    | some v => exact fw_span hb
  | between m k u c =>
    exact fw_caseO (fun it => fw_opK fun _ _ => fw_opK fun _ _ => fw_ite
      (fw_caseO (fun _ => fw_ite (fw_span hb) (.err le)) (fun _ => .err le)) (.err le)) (fun _ => .err le)
  | times rg u c =>
    exact fw_caseO (fun it => fw_opK fun _ _ => fw_opK fun _ _ => fw_ite
      (fw_caseO (fun _ => fw_ite (fw_span hb) (.err le)) (fun _ => .err le)) (.err le)) (fun _ => .err le)
  | thenU u v c =>
    refine fw_caseO (fun it => fw_opK fun _ _ => fw_opK fun _ _ => fw_ite ?_ (.err le)) (fun _ => .err le)
    match it with
    | [] => exact .err le
    | [_] => exact .err le
    | fst :: snd :: it' =>
      exact fw_caseO (fun _ => fw_ite (fw_caseO (fun _ => fw_ite (fw_span hb) (.err le)) (fun _ => .err le))
        (.err le)) (fun _ => .err le)
  | thn x y | pre x y | suf x y =>
    exact fw_caseR (hm x (.inl rfl) d o) (fun _ o1 h1 => fw_caseR (hm y (.inr rfl) d o1)
      (fun _ o2 h2 => fw_addM fun _ => .ok (by omega)) (fun _ _ _ => .err le)) (fun _ _ _ => .err le)
  | ifThen x t y =>
    exact fw_caseR (hm x (.inl rfl) d o) (fun _ o1 h1 => fw_caseR (hm t (.inr (.inl rfl)) d o1)
      (fun _ o2 h2 => fw_addM fun _ => fw_caseR (hm y (.inr (.inr rfl)) d o2)
        (fun _ o3 h3 => fw_addM fun _ => .ok (by omega)) (fun _ _ _ => .err le)) (fun _ _ _ => .ok h1))
      (fun _ _ _ => .err le)
  | enclose x t y =>
    exact fw_caseR (hm x (.inl rfl) d o) (fun _ o1 h1 => fw_caseR (hm t (.inr (.inl rfl)) d o1)
      (fun _ o2 h2 => fw_addM fun _ => fw_caseR (hm y (.inr (.inr rfl)) d o2)
        (fun _ o3 h3 => fw_addM fun _ => .ok (by omega)) (fun _ _ _ => .err le)) (fun _ _ _ => .err le))
      (fun _ _ _ => .err le)
  | sepOnce x t y =>
    exact fw_caseR (hm x (.inl rfl) d o) (fun _ o1 h1 => fw_addM fun _ => fw_caseR (hm t (.inr (.inl rfl)) d o1)
      (fun _ o2 h2 => fw_addM fun _ => fw_caseR (hm y (.inr (.inr rfl)) d o2)
        (fun _ o3 h3 => fw_addM fun _ => .ok (by omega)) (fun _ _ _ => .err le)) (fun _ _ _ => .err le))
      (fun _ _ _ => .err le)
  | longest x y =>
    have hk : ∀ s : Span, Fw o (opK (b.add o s.len) fun o' => some (.ok s o')) :=
      fun _ => fw_opK fun _ h => .ok (add_le hb h)
    exact fw_caseR (hm x (.inl rfl) d o) (fun _ _ _ => fw_caseR (hm y (.inr rfl) d o)
      (fun _ _ _ => fw_ite (hk _) (hk _)) (fun _ _ _ => hk _))
      (fun _ _ _ => fw_caseR (hm y (.inr rfl) d o) (fun _ _ _ => hk _) (fun _ _ _ => .err le))
  | rep q r => exact fw_rep (fun o => hm q rfl d o) n 0 _ o le
  | rep2 q m k => exact fw_rep (fun o => hm q rfl d o) n 0 _ o le
  | collect q min => exact fw_rep (fun o => hm q rfl d o) n 0 _ o le
  | sep q s skip min => exact fw_sep (fun o => hm q (.inl rfl) d o) (fun o => hm s (.inr rfl) d o) n 0 _ o le
  | sep2 q s skip m k => exact fw_sep (fun o => hm q (.inl rfl) d o) (fun o => hm s (.inr rfl) d o) n 0 _ o le
  | sepCollect q s skip min => exact fw_sep (fun o => hm q (.inl rfl) d o) (fun o => hm s (.inr rfl) d o) n 0 _ o le
  | assert q v =>
    exact fw_caseR (hm q rfl d o) (fun _ _ _ => fw_ite (.ok le) (.err le)) (fun _ _ _ => fw_ite (.err le) (.ok le))
  | or x y =>
    exact fw_caseR (hm x (.inl rfl) d o) (fun _ _ h => .ok h) (fun _ _ _ => fw_caseR (hm y (.inr rfl) d o)
      (fun _ _ h => .ok h) (fun _ _ _ => .err le))
  | opt q => exact fw_caseR (hm q rfl d o) (fun _ _ h => .ok h) (fun _ _ _ => .ok le)
  | choice e l => exact fw_choice l o le fun it hi o => hm it.1 ⟨it, hi, rfl⟩ d o
  | ltm e l => exact fw_ltm l none o le fun it hi o => hm it.1 ⟨it, hi, rfl⟩ d o
  | branch t x y =>
    refine fw_caseO (fun v => fw_caseR (hm _ ?_ d o) (fun _ _ h => .ok h) (fun _ _ _ => .err le)) (fun _ => .err le)
    cases v
    · exact .inr rfl
    · exact .inl rfl
  | map q f => exact hm q rfl d o
  | pat q => exact hm q rfl d o
  | build q f =>
    refine fw_caseR (hm q (.inl rfl) d o) (fun s o1 h1 => ?_) (fun _ _ _ => .err le)
    have h := hself d o1 s
    cases hf : f d o1 s with
    | panic => exact .panic
    | err e o2 => exact .err (Nat.le_trans h1 (h.2 _ _ hf))
    | ok p' o2 =>
      show Fw o (caseR (mt d p' o2) (fun s' o3 => some (.ok s' o3)) (fun e _ => some (.err e o)))
      exact fw_caseR (hm p' (.inr ⟨d, o1, s, o2, hf⟩) d o2)
        (fun _ _ h3 => .ok (Nat.le_trans h1 (Nat.le_trans (h.1 _ _ hf) h3))) (fun _ _ _ => .err le)
  | cell i =>
    simp only [stepM, step]
    cases hg : G i with
    | none => exact .err le
    | some q => exact hp q hg o

/-- The policy pattern moves forward too. -/
theorem fw_matWith {pr : Option (Pat ι β) → List ι → Pat ι β → Nat → Option (Res Span)}
    {pol : Option (Pat ι β)} {p : Pat ι β} {d : List ι} (hq : ∀ q, pol = some q → ∀ o, Fw o (pr none d q o))
    (hp : ∀ o, Fw o (pr pol d p o)) (o : Nat) : Fw o (matWith pr pol d p o) := by
  cases pol with
  | none => exact hp o
  | some q =>
    exact fw_caseR (hq q rfl o) (fun _ o' h => (hp o').mono h) (fun _ _ h => .err h)

theorem fw_parse (n : Nat) : ∀ (pol : Option (Pat ι β)), (∀ q, pol = some q → All G Onward q) →
    ∀ (d : List ι) (p : Pat ι β), All G Onward p → ∀ o, Fw o (parseM b G n pol d p o) := by
  induction n with
  | zero => exact fun _ _ _ _ _ _ => .none
  | succ n ih =>
    intro pol hpol d p hp o
    exact fw_step hb hp.self (fun q hq d o => fw_matWith hb
      (fun s hs o => ih none (fun _ h => by cases h) d s (hpol s hs) o)
      (fun o => ih pol hpol d q (hp.child hq) o) o)
      (fun q hq o => ih pol hpol d q (hp.child hq) o) n d o

theorem fw_mat (n : Nat) (pol : Option (Pat ι β)) (hpol : ∀ q, pol = some q → All G Onward q)
    (d : List ι) (p : Pat ι β) (hp : All G Onward p) (o : Nat) : Fw o (tryMatM b G n pol d p o) :=
  fw_matWith hb (fun s hs o => fw_parse hb n none (fun _ h => by cases h) d s (hpol s hs) o)
    (fun o => fw_parse hb n pol hpol d p hp o) o

end Checked

/-! ## Building values -/

/-- Both agree, and stopped at `o` or later. -/
def E {α : Type} (o : Nat) (x y : Option (CRes σ α)) : Prop :=
  x = y ∧ (∀ a st o', y = some (.ok a st o') → o ≤ o') ∧ (∀ e st o', y = some (.err e st o') → o ≤ o')

theorem E.ok {α : Type} {o o' : Nat} {a : α} {st : σ} (h : o ≤ o') :
    E o (some (.ok a st o')) (some (.ok a st o')) :=
  ⟨rfl, fun _ _ _ he => (by cases he; exact h), fun _ _ _ he => by cases he⟩

theorem E.err {α : Type} {o o' : Nat} {e : Error} {st : σ} (h : o ≤ o') :
    E (α := α) o (some (.err e st o')) (some (.err e st o')) :=
  ⟨rfl, fun _ _ _ he => (nomatch he), fun _ _ _ he => by cases he; exact h⟩

theorem E.panic {α : Type} {o : Nat} : E (α := α) (σ := σ) o (some .panic) (some .panic) :=
  ⟨rfl, fun _ _ _ he => (nomatch he), fun _ _ _ he => by cases he⟩

theorem E.none {α : Type} {o : Nat} : E (α := α) (σ := σ) o Option.none Option.none :=
  ⟨rfl, fun _ _ _ he => (nomatch he), fun _ _ _ he => by cases he⟩

theorem E.same {α : Type} {o : Nat} {x y : Option (CRes σ α)} (h : E o x y) : E o y y := ⟨rfl, h.2⟩

theorem e_reval {α : Type} {beg o stop o' : Nat} {a : CRes σ α} (h : beg ≤ stop)
    (ha : E o (some a) (some a)) : o' = o → E o' (reval b beg stop a) (some a) := by
  rintro rfl
  have : reval b beg stop a = some a := by simp [reval, Build.sub, h]
  rw [this]; exact ha

theorem e_revalEnd {α : Type} {o : Nat} {x y : Option (CRes σ α)} (h : E o x y) :
    E o (revalEnd b o x) y := by
  obtain ⟨rfl, h1, h2⟩ := h
  rcases x with _ | (⟨a, st, o'⟩ | ⟨e, st, o'⟩ | _)
  · exact .none
  · exact e_reval (h1 _ _ _ rfl) (.ok (h1 _ _ _ rfl)) rfl
  · exact e_reval (h2 _ _ _ rfl) (.err (h2 _ _ _ rfl)) rfl
  · exact .panic

theorem e_caseC {α γ : Type} {o o1 : Nat} {x y : Option (CRes σ α)}
    {k k' : α → σ → Nat → Option (CRes σ γ)} {e e' : Error → σ → Nat → Option (CRes σ γ)} (h : E o1 x y)
    (hk : ∀ a st o', o1 ≤ o' → E o (k a st o') (k' a st o'))
    (he : ∀ a st o', o1 ≤ o' → E o (e a st o') (e' a st o')) : E o (caseC x k e) (caseC y k' e') := by
  obtain ⟨rfl, h1, h2⟩ := h
  rcases x with _ | (⟨a, st, o'⟩ | ⟨er, st, o'⟩ | _)
  · exact .none
  · exact hk _ _ _ (h1 _ _ _ rfl)
  · exact he _ _ _ (h2 _ _ _ rfl)
  · exact .panic

theorem e_caseM {α γ : Type} {o o1 : Nat} {x : Option (Res α)}
    {k k' : α → Nat → Option (CRes σ γ)} {e e' : Error → Nat → Option (CRes σ γ)} (h : Fw o1 x)
    (hk : ∀ a o', o1 ≤ o' → E o (k a o') (k' a o'))
    (he : ∀ a o', o1 ≤ o' → E o (e a o') (e' a o')) : E o (caseM x k e) (caseM x k' e') := by
  rcases x with _ | (⟨a, o'⟩ | ⟨er, o'⟩ | _)
  · exact .none
  · exact hk _ _ (h.1 _ _ rfl)
  · exact he _ _ (h.2 _ _ rfl)
  · exact .panic

theorem e_caseT {α γ : Type} {o : Nat} {x : Out α} {k k' : α → Option (CRes σ γ)}
    {e e' : Error → Option (CRes σ γ)} (hk : ∀ a, E o (k a) (k' a)) (he : ∀ a, E o (e a) (e' a)) :
    E o (caseT x k e) (caseT x k' e') := by
  cases x
  · exact hk _
  · exact he _
  · exact .panic

theorem e_ite {γ : Type} {o : Nat} {c : Prop} [Decidable c] {x x' y y' : Option (CRes σ γ)} (h : E o x x')
    (h' : E o y y') : E o (if c then x else y) (if c then x' else y') := by
  by_cases hc : c
  · rw [if_pos hc, if_pos hc]; exact h
  · rw [if_neg hc, if_neg hc]; exact h'

theorem e_count {γ : Type} {o cnt : Nat} {k k' : Nat → Option (CRes σ γ)} (hk : ∀ a, E o (k a) (k' a)) :
    E o (countK b cnt k) (countK b cnt k') := by
  unfold countK
  cases b.add cnt 1 with
  | none => exact .panic
  | some v => exact hk v

theorem e_invoke {H : Handler ι β σ} {d : List ι} {st : σ} {o : Nat} {r : Option (Res Span)} (h : Fw o r) :
    E o (invokeK H d st r) (invokeK H d st r) := by
  refine e_caseM h (fun s o' h' => ?_) (fun _ _ h' => .err h')
  cases H d o' s st with
  | mk x st' =>
    cases x with
    | ok v => exact .ok h'
    | err e => exact .err h'
    | panic => exact .panic

theorem e_finish {ok : Nat → Bool} {e : Error} {beg cnt : Nat} {wrap : List (Val β) → Val β}
    {vals : List (Val β)} {st : σ} {o' : Nat} (h : beg ≤ o') :
    E beg (conFinish ok e beg wrap cnt vals st o') (conFinish ok e beg wrap cnt vals st o') := by
  unfold conFinish
  exact e_ite (.ok h) (.err (Nat.le_refl _))

section Loops

variable {cn cn' : Pat ι β → σ → Nat → Option (CRes σ (Val β))} {ms : Nat → Option (Res Span)}
  {more room ok : Nat → Bool} {e : Error} {beg : Nat} {wrap : List (Val β) → Val β} {skip : Bool}

theorem e_choice : ∀ (l : List (Pat ι β × Option (Val β))) (st : σ) (o : Nat), beg ≤ o →
    (∀ it ∈ l, ∀ st o, E o (cn it.1 st o) (cn' it.1 st o)) →
    E beg (conChoice cn e beg l st o) (conChoice cn' e beg l st o)
  | [], _, _, h, _ => .err h
  | it :: l, st, o, h, hl => by
    rw [conChoice, conChoice]
    exact e_caseC (hl it (by simp) st o) (fun _ _ _ h' => .ok (Nat.le_trans h h'))
      (fun _ _ _ _ => e_choice l _ _ (Nat.le_refl _) fun i hi => hl i (by simp [hi]))

theorem e_ltm : ∀ (l : List (Pat ι β × Option (Val β))) (best : Option (Val β)) (stop : Nat) (st : σ)
    (o : Nat), beg ≤ o → (∀ it ∈ l, ∀ st o, E o (cn it.1 st o) (cn' it.1 st o)) →
    E beg (conLtm cn e beg l best stop st o) (conLtm cn' e beg l best stop st o)
  | [], none, _, _, _, h, _ => .err h
  | [], some _, _, _, _, h, _ => .ok h
  | it :: l, best, stop, st, o, h, hl => by
    rw [conLtm, conLtm]
    have hl' : ∀ i ∈ l, ∀ st o, E o (cn i.1 st o) (cn' i.1 st o) := fun i hi => hl i (by simp [hi])
    exact e_caseC (hl it (by simp) st beg) (fun _ _ _ h' => e_ite (e_ltm l _ _ _ _ h' hl') (e_ltm l _ _ _ _ h' hl'))
      (fun _ _ _ h' => e_ltm l _ _ _ _ h' hl')

variable {p : Pat ι β} (hp : ∀ st o, E o (cn p st o) (cn' p st o))
include hp

theorem e_rep : ∀ (n cnt : Nat) (vals : List (Val β)) (st : σ) (o : Nat), beg ≤ o →
    E beg (conRepM b cn p more room (conFinish ok e beg wrap) n cnt vals st o)
      (conRepM b cn' p more room (conFinish ok e beg wrap) n cnt vals st o)
  | 0, _, _, _, _, _ => .none
  | n + 1, cnt, vals, st, o, h => by
    rw [conRepM, conRepM]
    exact e_ite (e_caseC (hp _ _) (fun _ _ o1 h1 => e_ite (e_count fun _ => e_rep n _ _ _ _ (by omega)) .panic)
      (fun _ _ o1 h1 => e_finish (by omega))) (e_finish h)

variable (hs : ∀ o, Fw o (ms o))
include hs

theorem e_sep0 : ∀ (n cnt : Nat) (vals : List (Val β)) (st : σ) (o : Nat), beg ≤ o →
    E beg (conSep cn ms p skip more room (conFinish ok e beg wrap) n cnt vals st o)
      (conSep cn' ms p skip more room (conFinish ok e beg wrap) n cnt vals st o)
  | 0, _, _, _, _, _ => .none
  | n + 1, cnt, vals, st, o, h => by
    rw [conSep, conSep]
    exact e_ite (e_caseC (hp _ _) (fun _ _ o1 h1 => e_caseM (hs _)
      (fun _ o2 h2 => e_ite (e_sep0 n _ _ _ _ (by omega)) .panic)
      (fun _ o2 h2 => e_ite (e_ite (e_finish (by omega)) .panic) (e_finish (by omega))))
      (fun _ _ o1 h1 => e_finish (by omega))) (e_finish h)

theorem e_sep : ∀ (n cnt : Nat) (vals : List (Val β)) (st : σ) (o : Nat), beg ≤ o →
    E beg (conSepM b cn ms p skip more room (conFinish ok e beg wrap) n cnt vals st o)
      (conSepM b cn' ms p skip more room (conFinish ok e beg wrap) n cnt vals st o)
  | 0, _, _, _, _, _ => .none
  | n + 1, cnt, vals, st, o, h => by
    rw [conSepM, conSepM]
    exact e_ite (e_caseC (hp _ _) (fun _ _ o1 h1 => e_caseM (hs _)
      (fun _ o2 h2 => e_ite (e_count fun _ => e_sep n _ _ _ _ (by omega)) .panic)
      (fun _ o2 h2 => e_ite (e_ite (e_count fun _ => e_finish (by omega)) .panic) (e_finish (by omega))))
      (fun _ _ o1 h1 => e_finish (by omega))) (e_finish h)

theorem e_sepCollect : ∀ (n : Nat) (ended : Bool) (cnt : Nat) (vals : List (Val β)) (st : σ) (o : Nat), beg ≤ o →
    E beg (conSepCollectM b cn ms p skip (conFinish ok e beg wrap) n ended cnt vals st o)
      (conSepCollectM b cn' ms p skip (conFinish ok e beg wrap) n ended cnt vals st o)
  | 0, _, _, _, _, _, _ => .none
  | n + 1, ended, cnt, vals, st, o, h => by
    rw [conSepCollectM, conSepCollectM]
    exact e_caseC (hp _ _) (fun _ _ o1 h1 => e_caseM (hs _)
      (fun _ o2 h2 => e_ite (e_finish (by omega)) (e_count fun _ => e_sepCollect n _ _ _ _ _ (by omega)))
      (fun _ o2 h2 => e_ite (e_finish (by omega))
        (e_ite (e_count fun _ => e_sepCollect n _ _ _ _ _ (by omega)) (e_finish (by omega)))))
      (fun _ _ o1 h1 => e_finish (by omega))

end Loops

theorem e_step {H : Handler ι β σ} {mt : Pat ι β → Nat → Option (Res Span)}
    {leaf : Option (Res Span)} {cn cn' : Pat ι β → σ → Nat → Option (CRes σ (Val β))} {p : Pat ι β}
    (hself : Onward p) (hm : ∀ q, Child G q p → ∀ o, Fw o (mt q o)) {o : Nat} (hl : Fw o leaf)
    (hc : ∀ q, Child G q p → ∀ st o, E o (cn q st o) (cn' q st o)) (n : Nat) (d : List ι) (st : σ) :
    E o (conStepLog b G H n mt leaf cn d p st o) (conStepM b G H n mt leaf cn' d p st o) := by
  have le := Nat.le_refl o
  cases p with
  | empty | fail | start | anchorEnd | consume _ | consumeAll | lit _ | native _ | once _ _ | optU _ _
  | many0 _ _ | many1 _ _ | between _ _ _ _ | times _ _ _ | thenU _ _ _ | assert _ _ | build _ _ =>
    exact e_invoke hl
  | pat q => exact e_invoke (hm q rfl o)
  | thn x y =>
    exact e_caseC (hc x (.inl rfl) _ _) (fun _ _ o1 h1 => e_caseC (hc y (.inr rfl) _ _)
      (fun _ _ o2 h2 => e_reval (by omega) (.ok (by omega)) rfl)
      (fun _ _ o2 h2 => e_reval (by omega) (.err le) rfl)) (fun _ _ o1 h1 => e_reval h1 (.err le) rfl)
  | ifThen x t y =>
    exact e_caseC (hc x (.inl rfl) _ _) (fun _ _ o1 h1 => e_caseM (hm t (.inr (.inl rfl)) _)
      (fun _ o2 h2 => e_caseC (hc y (.inr (.inr rfl)) _ _)
        (fun _ _ o3 h3 => e_reval (by omega) (.ok (by omega)) rfl) (fun _ _ _ _ => .err le))
      (fun _ _ _ => e_reval h1 (.ok h1) rfl)) (fun _ _ _ _ => .err le)
  | pre x y =>
    exact e_caseM (hm x (.inl rfl) _) (fun _ o1 h1 => e_caseC (hc y (.inr rfl) _ _)
      (fun _ _ o2 h2 => e_reval (by omega) (.ok (by omega)) rfl)
      (fun _ _ o2 h2 => e_reval (by omega) (.err le) rfl)) (fun _ _ _ => .err le)
  | suf x y =>
    exact e_caseC (hc x (.inl rfl) _ _) (fun _ _ o1 h1 => e_caseM (hm y (.inr rfl) _)
      (fun _ o2 h2 => e_reval (by omega) (.ok (by omega)) rfl) (fun _ _ _ => .err le))
      (fun _ _ o1 h1 => e_reval h1 (.err le) rfl)
  | enclose x y z =>
    exact e_caseM (hm x (.inl rfl) _) (fun _ o1 h1 => e_caseC (hc y (.inr (.inl rfl)) _ _)
      (fun _ _ o2 h2 => e_caseM (hm z (.inr (.inr rfl)) _)
        (fun _ o3 h3 => e_reval (by omega) (.ok (by omega)) rfl) (fun _ _ _ => .err le))
      (fun _ _ _ _ => .err le)) (fun _ _ _ => .err le)
  | sepOnce x y z =>
    exact e_caseC (hc x (.inl rfl) _ _) (fun _ _ o1 h1 => e_caseM (hm y (.inr (.inl rfl)) _)
      (fun _ o2 h2 => e_caseC (hc z (.inr (.inr rfl)) _ _)
        (fun _ _ o3 h3 => e_reval (by omega) (.ok (by omega)) rfl) (fun _ _ _ _ => .err le))
      (fun _ _ _ => .err le)) (fun _ _ _ _ => .err le)
  | branch t x y =>
    refine e_caseT (fun v => e_revalEnd (e_caseC (hc _ ?_ _ _) (fun _ _ _ h => .ok h) (fun _ _ _ _ => .err le)))
      (fun _ => .err le)
    cases v
    · exact .inr rfl
    · exact .inl rfl
  | dthen q f =>
    refine e_caseC (hc q (.inl rfl) _ _) (fun v1 st1 o1 h1 => ?_) (fun _ _ _ _ => .err le)
    have h := hself d o1 v1
    cases hf : f d o1 v1 with
    | panic => exact .panic
    | err e o2 => exact .err (Nat.le_trans h1 (h.2 _ _ hf))
    | ok p' o2 =>
      have h2 := h.1 _ _ hf
      exact e_caseC (hc p' (.inr ⟨d, o1, v1, o2, hf⟩) _ _)
        (fun _ _ o3 h3 => e_reval (by omega) (.ok (by omega)) rfl) (fun _ _ _ _ => .err le)
  | or x y =>
    exact e_revalEnd (e_caseC (hc x (.inl rfl) _ _) (fun _ _ _ h => .ok h) (fun _ _ _ _ =>
      e_caseC (hc y (.inr rfl) _ _) (fun _ _ _ h => .ok h) (fun _ _ _ _ => .err le)))
  | longest x y =>
    exact e_revalEnd (e_caseC (hc x (.inl rfl) _ _)
      (fun _ _ _ h => e_caseC (hc y (.inr rfl) _ _) (fun _ _ _ h' => e_ite (.ok h) (.ok h')) (fun _ _ _ _ => .ok h))
      (fun _ _ _ _ => e_caseC (hc y (.inr rfl) _ _) (fun _ _ _ h' => .ok h') (fun _ _ _ _ => .err le)))
  | opt q => exact e_revalEnd (e_caseC (hc q rfl _ _) (fun _ _ _ h => .ok h) (fun _ _ _ _ => .ok le))
  | choice e l => exact e_revalEnd (e_choice l st o le fun it hi => hc it.1 ⟨it, hi, rfl⟩)
  | ltm e l => exact e_revalEnd (e_ltm l none o st o le fun it hi => hc it.1 ⟨it, hi, rfl⟩)
  | rep q rg => exact e_revalEnd (e_rep (hc q rfl) n 0 [] st o le)
  | rep2 q m k => exact e_revalEnd (e_rep (hc q rfl) n 0 [] st o le)
  | collect q m => exact e_revalEnd (e_rep (hc q rfl) n 0 [] st o le)
  | sep q s k m => exact e_revalEnd (e_sep0 (hc q (.inl rfl)) (hm s (.inr rfl)) n 0 [] st o le)
  | sep2 q s k m l => exact e_revalEnd (e_sep (hc q (.inl rfl)) (hm s (.inr rfl)) n 0 [] st o le)
  | sepCollect q s k m => exact e_revalEnd (e_sepCollect (hc q (.inl rfl)) (hm s (.inr rfl)) n false 0 [] st o le)
  | map q f =>
    exact e_caseC (hc q rfl _ _) (fun _ _ _ h => e_caseT (fun _ => .ok h) (fun _ => .err h))
      (fun _ _ _ h => .err h)
  | cell i =>
    simp only [conStepLog, conStepM, conStep]
    cases hg : G i with
    | none => exact .err le
    | some q => exact hc q hg st o

theorem e_con (hb : b.overflowChecks = true) {H : Handler ι β σ} (n : Nat) (pol : Option (Pat ι β))
    (hpol : ∀ q, pol = some q → All G Onward q) (d : List ι) :
    ∀ (p : Pat ι β), All G Onward p → ∀ (st : σ) (o : Nat),
      E o (conLog b G H n pol d p st o) (conM b G H n pol d p st o) := by
  induction n with
  | zero => exact fun _ _ _ _ => .none
  | succ n ih =>
    intro p hp st o
    exact e_step hp.self (fun q hq o => fw_mat hb n pol hpol d q (hp.child hq) o)
      (fw_mat hb (n + 1) pol hpol d p hp o) (fun q hq st o => ih q (hp.child hq) st o) n d st

end Log

end Neure
