import Verif.StepEqs
import Verif.Sub
import Verif.Spec
/-!
# Termination of matching: conditions and lemmas
-/

namespace Neure

set_option linter.unusedSectionVars false

variable {ι β : Type} [Item ι]

/-! ## Conditions -/

/-- `p` never matches the empty string: a success moves the offset. -/
def Eats (G : Rules ι β) (pol : Option (Pat ι β)) (p : Pat ι β) : Prop :=
  ∀ d o s o', o ≤ blen d → Runs G pol d p o (.ok s o') → o < o'

/-- A success moves forward and stays in bounds. -/
def Forward (G : Rules ι β) (pol : Option (Pat ι β)) (p : Pat ι β) : Prop :=
  ∀ d o s o', o ≤ blen d → Runs G pol d p o (.ok s o') → o ≤ o' ∧ o' ≤ blen d

/-- `First G pol q p`: while matching `p`, `q` may be tried before anything has been
consumed. -/
def First (G : Rules ι β) (pol : Option (Pat ι β)) (q : Pat ι β) : Pat ι β → Prop
  | .once _ c | .many1 _ c | .optU _ c | .many0 _ c | .between _ _ _ c | .times _ _ c
  | .thenU _ _ c => c.Has q
  | .assert p _ | .opt p | .rep p _ | .rep2 p _ _ | .collect p _ | .map p _ | .pat p => q = p
  | .thn a b | .pre a b | .suf a b | .sep a b _ _ | .sep2 a b _ _ _ | .sepCollect a b _ _ =>
    q = a ∨ (¬ Eats G pol a ∧ q = b)
  | .or a b | .longest a b | .branch _ a b => q = a ∨ q = b
  | .ifThen a b c | .enclose a b c | .sepOnce a b c =>
    q = a ∨ (¬ Eats G pol a ∧ (q = b ∨ (¬ Eats G pol b ∧ q = c)))
  | .choice _ items | .ltm _ items => ∃ it ∈ items, q = it.1
  | .build p f => q = p ∨ (¬ Eats G pol p ∧ ∃ d o s o', f d o s = .ok q o')
  | .cell i => G i = some q
  | _ => False

/-- Loops without an upper bound make progress in every round; builder closures
do not move backwards. -/
def LoopsEat (G : Rules ι β) (pol : Option (Pat ι β)) : Pat ι β → Prop
  | .rep q r => r.hi ≠ .unb ∨ Eats G pol q
  | .collect q _ => Eats G pol q
  | .sep q s _ _ | .sepCollect q s _ _ => Eats G pol q ∨ Eats G pol s
  | .build _ f => ∀ d o s q o', o ≤ blen d → f d o s = .ok q o' → o ≤ o' ∧ o' ≤ blen d
  | _ => True

/-- The skip pattern of a policy context returns, and moves forward. -/
def PolicyReturns (G : Rules ι β) (pol : Option (Pat ι β)) : Prop :=
  ∀ w, pol = some w → (∀ d o, o ≤ blen d → ∃ r, Parses G none d w o r) ∧ Forward G none w

/-! ## Lemmas: when the pieces return, the whole returns -/

theorem caseR_ne {α γ : Type} {x : Option (Res α)} {f : α → Nat → Option (Res γ)}
    {g : Error → Nat → Option (Res γ)} (h : x ≠ none)
    (hf : ∀ a o, x = some (.ok a o) → f a o ≠ none) (hg : ∀ e o, x = some (.err e o) → g e o ≠ none) :
    caseR x f g ≠ none := by
  cases x with
  | none => exact absurd rfl h
  | some v => cases v with
    | ok a o => exact hf a o rfl
    | err e o => exact hg e o rfl
    | panic => simp [caseR]

theorem caseO_ne {α γ : Type} {x : Option (Out α)} {f : α → Option (Res γ)}
    {g : Error → Option (Res γ)} (h : x ≠ none)
    (hf : ∀ a, x = some (.ok a) → f a ≠ none) (hg : ∀ e, x = some (.err e) → g e ≠ none) :
    caseO x f g ≠ none := by
  cases x with
  | none => exact absurd rfl h
  | some v => cases v with
    | ok a => exact hf a rfl
    | err e => exact hg e rfl
    | panic => simp [caseO]

theorem addK_ne {γ : Type} {s t : Span} {k : Span → Option (Res γ)} (h : ∀ u, k u ≠ none) :
    addK s t k ≠ none := by
  unfold addK; split
  · simp
  · exact h _

theorem remK_ne {γ : Type} {d : List ι} {o : Nat} {k : Nat → Option (Res γ)} (h : ∀ u, k u ≠ none) :
    remK d o k ≠ none := by
  unfold remK; split
  · exact h _
  · simp

theorem spanK_ne (o : Nat) (x : Option Nat) : spanK o x ≠ none := by
  unfold spanK; cases x <;> simp

theorem finish_ne (ok : Nat → Bool) (e : Error) (beg cnt : Nat) (t : Span) (o : Nat) :
    finish ok e beg cnt t o ≠ none := by
  unfold finish; split <;> simp

theorem scan_ne {test : Nat × ι → Option (Out Bool)} {more : Nat → Bool} {it : List (Nat × ι)}
    (h : ∀ pr, test pr ≠ none) (cnt : Nat) (beg : Option Nat) : scan test more cnt beg it ≠ none := by
  induction it generalizing cnt beg with
  | nil => simp [scan]
  | cons pr it ih =>
    simp only [scan]
    split
    · cases ht : test pr with
      | none => exact absurd ht (h pr)
      | some v => cases v with
        | panic => simp
        | err e => simp
        | ok b => cases b with
          | true => exact ih _ _
          | false => simp
    · simp

theorem testItem_ne {mt : List ι → Pat ι β → Nat → Option (Res Span)} {d : List ι} {o : Nat}
    {u : Neu ι} {c : Cond ι β}
    (h : ∀ i d' q, c.Has q → origAt d (o + i) = .ok d' → mt d' q 0 ≠ none) (pr : Nat × ι) :
    testItem mt d o u c pr ≠ none := by
  unfold testItem
  split
  · cases c with
    | empty => simp [check]
    | fn f => simp [check]
    | regex q =>
      simp only [check]
      cases ho : origAt d (o + pr.1) with
      | panic => simp
      | err e => simp
      | ok d' =>
        have := h pr.1 d' q rfl ho
        cases hm : mt d' q 0 with
        | none => exact absurd hm this
        | some v => cases v <;> simp [hm]
  · simp

theorem choiceLoop_ne {mt : Pat ι β → Nat → Option (Res Span)} {e : Error} {beg : Nat}
    {items : List (Pat ι β × Option (Val β))} (h : ∀ it ∈ items, mt it.1 beg ≠ none) :
    choiceLoop mt e beg items beg ≠ none := by
  induction items with
  | nil => simp [choiceLoop]
  | cons it items ih =>
    simp only [choiceLoop]
    refine caseR_ne (h it (by simp)) (fun _ _ _ => by simp) (fun _ _ _ => ?_)
    exact ih fun it' h' => h it' (List.mem_cons_of_mem _ h')

theorem ltmLoop_ne {mt : Pat ι β → Nat → Option (Res Span)} {e : Error} {beg : Nat}
    {items : List (Pat ι β × Option (Val β))} (h : ∀ it ∈ items, mt it.1 beg ≠ none)
    (best : Option Span) (o : Nat) : ltmLoop mt e beg items best o ≠ none := by
  induction items generalizing best o with
  | nil => cases best <;> simp [ltmLoop]
  | cons it items ih =>
    simp only [ltmLoop]
    exact caseR_ne (h it (by simp)) (fun _ _ _ => ih (fun it' h' => h it' (List.mem_cons_of_mem _ h')) _ _)
      (fun _ _ _ => ih (fun it' h' => h it' (List.mem_cons_of_mem _ h')) _ _)

/-- A repetition returns if its element always returns and it either eats or the
number of rounds is bounded. -/
theorem repL_ne {mt : Pat ι β → Nat → Option (Res Span)} {q : Pat ι β} {more : Nat → Bool}
    {fin : Nat → Span → Nat → Option (Res Span)} {lo len : Nat}
    (hfin : ∀ c t o, fin c t o ≠ none)
    (hq : ∀ o, lo ≤ o → o ≤ len → mt q o ≠ none)
    (hf : ∀ o s o', lo ≤ o → o ≤ len → mt q o = some (.ok s o') → o ≤ o' ∧ o' ≤ len)
    (h : (∀ o s o', lo ≤ o → o ≤ len → mt q o = some (.ok s o') → o < o') ∨ ∃ N, ∀ c, N < c → more c = false)
    (cnt : Nat) (t : Span) (o : Nat) (hlo : lo ≤ o) (ho : o ≤ len) :
    repL mt q more fin cnt t o ≠ none := by
  rcases h with he | ⟨N, hN⟩
  · generalize hk : len - o = k
    induction k using Nat.strongRecOn generalizing cnt t o with
    | _ k ih =>
      rw [repL_eq]
      split
      · refine caseR_ne (hq o hlo ho) (fun s o' hs => addK_ne fun t' => ?_) (fun _ _ _ => hfin _ _ _)
        have h1 := hf o s o' hlo ho hs
        have h2 := he o s o' hlo ho hs
        exact ih (len - o') (by omega) _ _ _ (by omega) h1.2 rfl
      · exact hfin _ _ _
  · generalize hk : N + 1 - cnt = k
    induction k generalizing cnt t o with
    | zero =>
      rw [repL_eq, if_neg]
      · exact hfin _ _ _
      · rw [hN cnt (by omega)]; simp
    | succ k ih =>
      rw [repL_eq]
      split
      · refine caseR_ne (hq o hlo ho) (fun s o' hs => addK_ne fun t' => ?_) (fun _ _ _ => hfin _ _ _)
        have h1 := hf o s o' hlo ho hs
        exact ih _ _ _ (by omega) h1.2 (by omega)
      · exact hfin _ _ _

theorem sepL_ne {mt : Pat ι β → Nat → Option (Res Span)} {q s : Pat ι β} {skip : Bool}
    {more : Nat → Bool} {fin : Nat → Span → Nat → Option (Res Span)} {lo len : Nat}
    (hfin : ∀ c t o, fin c t o ≠ none)
    (hq : ∀ o, lo ≤ o → o ≤ len → mt q o ≠ none)
    (hf : ∀ o sp o', lo ≤ o → o ≤ len → mt q o = some (.ok sp o') → o ≤ o' ∧ o' ≤ len)
    (hs : ∀ o sp o', lo ≤ o → o ≤ len → mt q o = some (.ok sp o') → mt s o' ≠ none)
    (hsf : ∀ o sp o', lo ≤ o → o ≤ len → mt s o = some (.ok sp o') → o ≤ o' ∧ o' ≤ len)
    (h : (∀ o sp o', lo ≤ o → o ≤ len → mt q o = some (.ok sp o') → o < o') ∨
      (∀ o sp o', lo ≤ o → o ≤ len → mt s o = some (.ok sp o') → o < o') ∨
      ∃ N, ∀ c, N < c → more c = false)
    (cnt : Nat) (t : Span) (o : Nat) (hlo : lo ≤ o) (ho : o ≤ len) :
    sepL mt q s skip more fin cnt t o ≠ none := by
  have last : ∀ cnt t ps o'', (if skip then addK t ps fun t1 => fin (cnt + 1) t1 o''
      else fin cnt t o'') ≠ none := by
    intro cnt t ps o''
    split
    · exact addK_ne fun _ => hfin _ _ _
    · exact hfin _ _ _
  have key : (∀ o sp o' sp' o'', lo ≤ o → o ≤ len → mt q o = some (.ok sp o') →
      mt s o' = some (.ok sp' o'') → o < o'') ∨ ∃ N, ∀ c, N < c → more c = false := by
    rcases h with he | he | hN
    · left
      intro o sp o' sp' o'' h1 h2 h3 h4
      have a := hf o sp o' h1 h2 h3
      have b := he o sp o' h1 h2 h3
      have c := hsf o' sp' o'' (by omega) a.2 h4
      omega
    · left
      intro o sp o' sp' o'' h1 h2 h3 h4
      have a := hf o sp o' h1 h2 h3
      have b := he o' sp' o'' (by omega) a.2 h4
      omega
    · exact .inr hN
  rcases key with he | ⟨N, hN⟩
  · generalize hk : len - o = k
    induction k using Nat.strongRecOn generalizing cnt t o with
    | _ k ih =>
      rw [sepL_eq]
      split
      · refine caseR_ne (hq o hlo ho) (fun sp o' h1 => ?_) (fun _ _ _ => hfin _ _ _)
        have a := hf o sp o' hlo ho h1
        refine caseR_ne (hs o sp o' hlo ho h1) (fun sp' o'' h2 => addK_ne fun t1 => addK_ne fun t2 => ?_)
          (fun _ _ _ => last _ _ _ _)
        have b := he o sp o' sp' o'' hlo ho h1 h2
        have c := hsf o' sp' o'' (by omega) a.2 h2
        exact ih (len - o'') (by omega) _ _ _ (by omega) c.2 rfl
      · exact hfin _ _ _
  · generalize hk : N + 1 - cnt = k
    induction k generalizing cnt t o with
    | zero =>
      rw [sepL_eq, if_neg]
      · exact hfin _ _ _
      · rw [hN cnt (by omega)]; simp
    | succ k ih =>
      rw [sepL_eq]
      split
      · refine caseR_ne (hq o hlo ho) (fun sp o' h1 => ?_) (fun _ _ _ => hfin _ _ _)
        have a := hf o sp o' hlo ho h1
        refine caseR_ne (hs o sp o' hlo ho h1) (fun sp' o'' h2 => addK_ne fun t1 => addK_ne fun t2 => ?_)
          (fun _ _ _ => last _ _ _ _)
        have c := hsf o' sp' o'' (by omega) a.2 h2
        exact ih _ _ _ (by omega) c.2 (by omega)
      · exact hfin _ _ _

theorem origAt_len {d d' : List ι} {o : Nat} (h : origAt d o = .ok d') : o + blen d' = blen d := by
  rw [origAt_ok] at h
  have := dropB_len h
  omega

theorem more_false (r : CRange) (h : r.hi ≠ .unb) : ∃ N, ∀ c, N < c → r.more c = false := by
  unfold CRange.more
  cases hr : r.hi with
  | incl n => exact ⟨n, fun c hc => by simp; omega⟩
  | excl n => exact ⟨n, fun c hc => by simp; omega⟩
  | unb => exact absurd hr h

/-- One round of the induction: matching `p` returns from any offset with at most `R`
bytes to go, provided (1) everything `p` may try first returns with at most `R`
bytes to go and (2) all components return with fewer than `R` bytes to go. -/
theorem stepL_returns {G : Rules ι β} {pol : Option (Pat ι β)}
    {mt : List ι → Pat ι β → Nat → Option (Res Span)} {pr : Pat ι β → Nat → Option (Res Span)}
    {p : Pat ι β} {R : Nat} (hle : ∀ d q o, Le (mt d q o) (matL G pol d q o))
    (hfw : ∀ q, Child G q p → Forward G pol q) (hl : LoopsEat G pol p)
    (hfirst : ∀ q, First G pol q p → ∀ d o, o ≤ blen d → blen d - o ≤ R → mt d q o ≠ none)
    (hlater : ∀ q, Child G q p → ∀ d o, o ≤ blen d → blen d - o < R → mt d q o ≠ none)
    (d : List ι) (o : Nat) (ho : o ≤ blen d) (hR : blen d - o ≤ R)
    (hcell : ∀ q, First G pol q p → pr q o ≠ none) :
    stepL G mt pr d p o ≠ none := by
  have fw : ∀ q, Child G q p → ∀ o s o', o ≤ blen d → mt d q o = some (.ok s o') →
      o ≤ o' ∧ o' ≤ blen d := fun q hq o s o' ho h => hfw q hq d o s o' ho (runs_iff.mpr (hle _ _ _ _ h))
  -- the pattern after `a`
  have next : ∀ (a b : Pat ι β), Child G a p → Child G b p → (¬ Eats G pol a → First G pol b p) →
      ∀ o1 s o2, o ≤ o1 → o1 ≤ blen d → mt d a o1 = some (.ok s o2) →
      mt d b o2 ≠ none := by
    intro a b ha hb hF o1 s o2 h1 h1' h2
    have h3 := fw a ha o1 s o2 h1' h2
    by_cases he : Eats G pol a
    · have := he d o1 s o2 h1' (runs_iff.mpr (hle _ _ _ _ h2))
      exact hlater b hb d o2 h3.2 (by omega)
    · exact hfirst b (hF he) d o2 h3.2 (by omega)
  have here : ∀ q, First G pol q p → mt d q o ≠ none := fun q hq => hfirst q hq d o ho hR
  have cond : ∀ (c : Cond ι β) (u : Neu ι), (∀ q, c.Has q → First G pol q p) →
      ∀ pr, testItem mt d o u c pr ≠ none := by
    intro c u hc pr
    refine testItem_ne (fun i d' q hq h => ?_) pr
    have := origAt_len h
    exact hfirst q (hc q hq) d' 0 (by omega) (by omega)
  have seq : ∀ (a b : Pat ι β), Child G a p → Child G b p → First G pol a p →
      (¬ Eats G pol a → First G pol b p) → seq2 (mt d) a b o ≠ none := by
    intro a b ha hb hFa hFb
    exact caseR_ne (here a hFa)
      (fun s o1 h => caseR_ne (next a b ha hb hFb o s o1 (Nat.le_refl _) ho h)
        (fun _ _ _ => addK_ne fun _ => by simp) (fun _ _ _ => by simp))
      (fun _ _ _ => by simp)
  have three : ∀ (a b c : Pat ι β), Child G a p → Child G b p → Child G c p → First G pol a p →
      (¬ Eats G pol a → First G pol b p) → (¬ Eats G pol a → ¬ Eats G pol b → First G pol c p) →
      ∀ s o1, mt d a o = some (.ok s o1) → mt d b o1 ≠ none ∧
        ∀ s' o2, mt d b o1 = some (.ok s' o2) → mt d c o2 ≠ none := by
    intro a b c ha hb hc hFa hFb hFc s o1 h1
    have h2 := fw a ha o s o1 ho h1
    refine ⟨next a b ha hb hFb o s o1 (Nat.le_refl _) ho h1, fun s' o2 h3 => ?_⟩
    have h4 := fw b hb o1 s' o2 h2.2 h3
    by_cases hea : Eats G pol a
    · have := hea d o s o1 ho (runs_iff.mpr (hle _ _ _ _ h1))
      exact hlater c hc d o2 h4.2 (by omega)
    · by_cases heb : Eats G pol b
      · have := heb d o1 s' o2 h2.2 (runs_iff.mpr (hle _ _ _ _ h3))
        exact hlater c hc d o2 h4.2 (by omega)
      · exact hfirst c (hFc hea heb) d o2 h4.2 (by omega)
  have rep : ∀ (q : Pat ι β) (more : Nat → Bool) (fin : Nat → Span → Nat → Option (Res Span)),
      Child G q p → First G pol q p → (∀ c t o, fin c t o ≠ none) →
      (Eats G pol q ∨ ∃ N, ∀ c, N < c → more c = false) →
      repL (mt d) q more fin 0 ⟨o, 0⟩ o ≠ none := by
    intro q more fin hc hF hfin h
    refine repL_ne (lo := o) (len := blen d) hfin (fun o1 h1 h2 => hfirst q hF d o1 h2 (by omega))
      (fun o1 s o' _ h2 h3 => fw q hc o1 s o' h2 h3) ?_ _ _ _ (Nat.le_refl _) ho
    rcases h with h | h
    · exact .inl fun o1 s o' _ h2 h3 => h d o1 s o' h2 (runs_iff.mpr (hle _ _ _ _ h3))
    · exact .inr h
  have sep : ∀ (q s : Pat ι β) (skip : Bool) (more : Nat → Bool)
      (fin : Nat → Span → Nat → Option (Res Span)),
      Child G q p → Child G s p → First G pol q p → (¬ Eats G pol q → First G pol s p) →
      (∀ c t o, fin c t o ≠ none) →
      (Eats G pol q ∨ Eats G pol s ∨ ∃ N, ∀ c, N < c → more c = false) →
      sepL (mt d) q s skip more fin 0 ⟨o, 0⟩ o ≠ none := by
    intro q s skip more fin hc hcs hF hFs hfin h
    refine sepL_ne (lo := o) (len := blen d) hfin (fun o1 h1 h2 => hfirst q hF d o1 h2 (by omega))
      (fun o1 s o' _ h2 h3 => fw q hc o1 s o' h2 h3)
      (fun o1 sp o' h1 h2 h3 => next q s hc hcs hFs o1 sp o' h1 h2 h3)
      (fun o1 sp o' _ h2 h3 => fw s hcs o1 sp o' h2 h3) ?_ _ _ _ (Nat.le_refl _) ho
    rcases h with h | h | h
    · exact .inl fun o1 s o' _ h2 h3 => h d o1 s o' h2 (runs_iff.mpr (hle _ _ _ _ h3))
    · exact .inr (.inl fun o1 s o' _ h2 h3 => h d o1 s o' h2 (runs_iff.mpr (hle _ _ _ _ h3)))
    · exact .inr (.inr h)
  have bnd : ∀ n : Nat, ∃ N, ∀ c, N < c → (fun c => decide (c ≤ n)) c = false :=
    fun n => ⟨n, fun c hc => by simp; omega⟩
  cases p
  case empty => rw [stepL_empty]; simp
  case fail => rw [stepL_fail]; simp
  case start => rw [stepL_start]; split <;> simp
  case anchorEnd => rw [stepL_anchorEnd]; split <;> simp
  case consume => rw [stepL_consume]; exact remK_ne fun _ => by split <;> simp
  case consumeAll => rw [stepL_consumeAll]; simp
  case lit =>
    rw [stepL_lit]
    refine remK_ne fun _ => ?_
    split
    · exact caseO_ne (by simp) (fun _ _ => by split <;> simp) (fun _ _ => by simp)
    · simp
  case native => rw [stepL_native]; simp
  case once u c =>
    rw [stepL_once]
    refine caseO_ne (by simp) (fun it _ => remK_ne fun _ => ?_) (fun _ _ => by simp)
    cases it with
    | nil => simp
    | cons pr it =>
      refine caseO_ne (cond c u (fun q h => h) pr) (fun b _ => ?_) (fun _ _ => by simp)
      split
      · exact spanK_ne _ _
      · simp
  case many1 u c =>
    rw [stepL_many1]
    refine caseO_ne (by simp) (fun it _ => remK_ne fun _ => ?_) (fun _ _ => by simp)
    refine caseO_ne (scan_ne (cond c u (fun q h => h)) _ _) (fun s _ => ?_) (fun _ _ => by simp)
    split
    · simp
    · exact spanK_ne _ _
  case optU u c =>
    rw [stepL_optU]
    refine remK_ne fun _ => caseO_ne (by simp) (fun it _ => ?_) (fun _ _ => by simp)
    cases it with
    | nil => simp
    | cons pr it =>
      refine caseO_ne (cond c u (fun q h => h) pr) (fun b _ => ?_) (fun _ _ => by simp)
      split
      · exact spanK_ne _ _
      · simp
  case many0 u c =>
    rw [stepL_many0]
    refine remK_ne fun _ => caseO_ne (by simp) (fun it _ => ?_) (fun _ _ => by simp)
    refine caseO_ne (scan_ne (cond c u (fun q h => h)) _ _) (fun s _ => ?_) (fun _ _ => by simp)
    split
    · simp
    · exact spanK_ne _ _
  case between m n u c =>
    rw [stepL_between]
    refine caseO_ne (by simp) (fun it _ => remK_ne fun _ => ?_) (fun _ _ => by simp)
    split
    · refine caseO_ne (scan_ne (cond c u (fun q h => h)) _ _) (fun s _ => ?_) (fun _ _ => by simp)
      split
      · exact spanK_ne _ _
      · simp
    · simp
  case times r u c =>
    rw [stepL_times]
    refine caseO_ne (by simp) (fun it _ => remK_ne fun _ => ?_) (fun _ _ => by simp)
    split
    · refine caseO_ne (scan_ne (cond c u (fun q h => h)) _ _) (fun s _ => ?_) (fun _ _ => by simp)
      split
      · exact spanK_ne _ _
      · simp
    · simp
  case thenU u v c =>
    rw [stepL_thenU]
    refine caseO_ne (by simp) (fun it _ => remK_ne fun _ => ?_) (fun _ _ => by simp)
    split
    · split
      · refine caseO_ne (cond c u (fun q h => h) _) (fun b _ => ?_) (fun _ _ => by simp)
        split
        · refine caseO_ne (cond c v (fun q h => h) _) (fun b _ => ?_) (fun _ _ => by simp)
          split
          · exact spanK_ne _ _
          · simp
        · simp
      · simp
    · simp
  case assert q v =>
    rw [stepL_assert]
    exact caseR_ne (here q rfl) (fun _ _ _ => by split <;> simp) (fun _ _ _ => by split <;> simp)
  case thn a b =>
    rw [stepL_thn]; exact seq a b (.inl rfl) (.inr rfl) (.inl rfl) (fun h => .inr ⟨h, rfl⟩)
  case pre a b =>
    rw [stepL_pre]; exact seq a b (.inl rfl) (.inr rfl) (.inl rfl) (fun h => .inr ⟨h, rfl⟩)
  case suf a b =>
    rw [stepL_suf]; exact seq a b (.inl rfl) (.inr rfl) (.inl rfl) (fun h => .inr ⟨h, rfl⟩)
  case ifThen a t b =>
    rw [stepL_ifThen]
    refine caseR_ne (here a (.inl rfl)) (fun s o1 h => ?_) (fun _ _ _ => by simp)
    obtain ⟨h1, h2⟩ := three a t b (.inl rfl) (.inr (.inl rfl)) (.inr (.inr rfl)) (.inl rfl)
      (fun h => .inr ⟨h, .inl rfl⟩) (fun h h' => .inr ⟨h, .inr ⟨h', rfl⟩⟩) s o1 h
    refine caseR_ne h1 (fun s' o2 h' => addK_ne fun _ => ?_) (fun _ _ _ => by simp)
    exact caseR_ne (h2 s' o2 h') (fun _ _ _ => addK_ne fun _ => by simp) (fun _ _ _ => by simp)
  case enclose a t b =>
    rw [stepL_enclose]
    refine caseR_ne (here a (.inl rfl)) (fun s o1 h => ?_) (fun _ _ _ => by simp)
    obtain ⟨h1, h2⟩ := three a t b (.inl rfl) (.inr (.inl rfl)) (.inr (.inr rfl)) (.inl rfl)
      (fun h => .inr ⟨h, .inl rfl⟩) (fun h h' => .inr ⟨h, .inr ⟨h', rfl⟩⟩) s o1 h
    refine caseR_ne h1 (fun s' o2 h' => addK_ne fun _ => ?_) (fun _ _ _ => by simp)
    exact caseR_ne (h2 s' o2 h') (fun _ _ _ => addK_ne fun _ => by simp) (fun _ _ _ => by simp)
  case sepOnce a t b =>
    rw [stepL_sepOnce]
    refine caseR_ne (here a (.inl rfl)) (fun s o1 h => addK_ne fun _ => ?_) (fun _ _ _ => by simp)
    obtain ⟨h1, h2⟩ := three a t b (.inl rfl) (.inr (.inl rfl)) (.inr (.inr rfl)) (.inl rfl)
      (fun h => .inr ⟨h, .inl rfl⟩) (fun h h' => .inr ⟨h, .inr ⟨h', rfl⟩⟩) s o1 h
    refine caseR_ne h1 (fun s' o2 h' => addK_ne fun _ => ?_) (fun _ _ _ => by simp)
    exact caseR_ne (h2 s' o2 h') (fun _ _ _ => addK_ne fun _ => by simp) (fun _ _ _ => by simp)
  case or a b =>
    rw [stepL_or]
    refine caseR_ne (here a (.inl rfl)) (fun _ _ _ => by simp) (fun _ _ _ => ?_)
    exact caseR_ne (here b (.inr rfl)) (fun _ _ _ => by simp) (fun _ _ _ => by simp)
  case longest a b =>
    rw [stepL_longest]
    refine caseR_ne (here a (.inl rfl)) (fun _ _ _ => ?_) (fun _ _ _ => ?_)
    · exact caseR_ne (here b (.inr rfl)) (fun _ _ _ => by split <;> simp) (fun _ _ _ => by simp)
    · exact caseR_ne (here b (.inr rfl)) (fun _ _ _ => by simp) (fun _ _ _ => by simp)
  case opt q =>
    rw [stepL_opt]
    exact caseR_ne (here q rfl) (fun _ _ _ => by simp) (fun _ _ _ => by simp)
  case choice e items =>
    rw [stepL_choice]
    exact choiceLoop_ne fun it hit => here it.1 ⟨it, hit, rfl⟩
  case ltm e items =>
    rw [stepL_ltm]
    exact ltmLoop_ne (fun it hit => here it.1 ⟨it, hit, rfl⟩) _ _
  case rep q r =>
    rw [stepL_rep]
    exact rep q _ _ rfl rfl (finish_ne _ _ _) (hl.elim (fun h => .inr (more_false r h)) .inl)
  case rep2 q m n =>
    rw [stepL_rep2]; exact rep q _ _ rfl rfl (finish_ne _ _ _) (.inr (bnd n))
  case collect q m =>
    rw [stepL_collect]; exact rep q _ _ rfl rfl (finish_ne _ _ _) (.inl hl)
  case sep q s skip m =>
    rw [stepL_sep]
    exact sep q s _ _ _ (.inl rfl) (.inr rfl) (.inl rfl) (fun h => .inr ⟨h, rfl⟩) (finish_ne _ _ _)
      (hl.elim .inl (fun h => .inr (.inl h)))
  case sep2 q s skip m n =>
    rw [stepL_sep2]
    exact sep q s _ _ _ (.inl rfl) (.inr rfl) (.inl rfl) (fun h => .inr ⟨h, rfl⟩) (finish_ne _ _ _)
      (.inr (.inr (bnd n)))
  case sepCollect q s skip m =>
    rw [stepL_sepCollect]
    exact sep q s _ _ _ (.inl rfl) (.inr rfl) (.inl rfl) (fun h => .inr ⟨h, rfl⟩) (finish_ne _ _ _)
      (hl.elim .inl (fun h => .inr (.inl h)))
  case branch t a b =>
    rw [stepL_branch]
    refine caseO_ne (by simp) (fun b' _ => ?_) (fun _ _ => by simp)
    refine caseR_ne ?_ (fun _ _ _ => by simp) (fun _ _ _ => by simp)
    cases b'
    · exact here b (.inr rfl)
    · exact here a (.inl rfl)
  case map q f => rw [stepL_map]; exact here q rfl
  case pat q => rw [stepL_pat]; exact here q rfl
  case build q f =>
    rw [stepL_build]
    refine caseR_ne (here q (.inl rfl)) (fun s o1 h => ?_) (fun _ _ _ => by simp)
    refine caseR_ne (by simp) (fun p' o2 h' => ?_) (fun _ _ _ => by simp)
    refine caseR_ne ?_ (fun _ _ _ => by simp) (fun _ _ _ => by simp)
    have h1 := fw q (.inl rfl) o s o1 ho h
    have hf : f d o1 s = .ok p' o2 := by simpa using h'
    have h2 := hl d o1 s p' o2 h1.2 hf
    by_cases he : Eats G pol q
    · have := he d o s o1 ho (runs_iff.mpr (hle _ _ _ _ h))
      exact hlater p' (.inr ⟨d, o1, s, o2, hf⟩) d o2 h2.2 (by omega)
    · exact hfirst p' (.inr ⟨he, d, o1, s, o2, hf⟩) d o2 h2.2 (by omega)
  case dthen => rw [stepL_dthen]; simp
  case cell i =>
    rw [stepL_cell]
    cases hG : G i with
    | none => simp
    | some q => exact hcell q hG

/-- One round of the induction behind termination. -/
theorem parseL_returns {G : Rules ι β} {pol : Option (Pat ι β)} {p : Pat ι β} {R : Nat}
    (hfw : ∀ q, Child G q p → Forward G pol q) (hl : LoopsEat G pol p)
    (hfirst : ∀ q, First G pol q p → ∀ d o, o ≤ blen d → blen d - o ≤ R → matL G pol d q o ≠ none)
    (hcell : ∀ q, First G pol q p → ∀ d o, o ≤ blen d → blen d - o ≤ R → parseL G pol d q o ≠ none)
    (hlater : ∀ q, Child G q p → ∀ d o, o ≤ blen d → blen d - o < R → matL G pol d q o ≠ none)
    (d : List ι) (o : Nat) (ho : o ≤ blen d) (hR : blen d - o ≤ R) :
    parseL G pol d p o ≠ none := by
  rw [parseL_eq]
  exact stepL_returns (fun _ _ _ => Le.refl _) hfw hl hfirst hlater d o ho hR
    (fun q hq => hcell q hq d o ho hR)

theorem First.child {G : Rules ι β} {pol : Option (Pat ι β)} {q p : Pat ι β} (h : First G pol q p) :
    Child G q p := by
  cases p <;> simp_all only [First, Child] <;> grind

theorem matL_ne {G : Rules ι β} {pol : Option (Pat ι β)} {d : List ι} {p : Pat ι β} {o R : Nat}
    (hpol : PolicyReturns G pol) (ho : o ≤ blen d) (hR : blen d - o ≤ R)
    (h : ∀ o', o' ≤ blen d → blen d - o' ≤ R → parseL G pol d p o' ≠ none) :
    matL G pol d p o ≠ none := by
  cases pol with
  | none => rw [matL_none]; exact h o ho hR
  | some w =>
    obtain ⟨h1, h2⟩ := hpol w rfl
    rw [matL_some]
    refine caseR_ne ?_ (fun s o' h3 => ?_) (fun _ _ _ => by simp)
    · obtain ⟨r, hr⟩ := h1 d o ho
      rw [parses_iff] at hr; rw [matL_none, hr]; simp
    · have := h2 d o s o' ho (runs_iff.mpr h3)
      exact h o' this.2 (by omega)

/-- Matching returns for every pattern reachable from `p`. -/
theorem parseL_total {G : Rules ι β} {pol : Option (Pat ι β)} (hpol : PolicyReturns G pol)
    (R : Nat) (p : Pat ι β)
    (h : All G (fun q => Forward G pol q ∧ LoopsEat G pol q ∧ Acc (First G pol) q) p) :
    ∀ d o, o ≤ blen d → blen d - o ≤ R → parseL G pol d p o ≠ none := by
  induction R using Nat.strongRecOn generalizing p with
  | _ R ihR =>
    have hacc := h.self.2.2
    induction hacc with
    | intro p _ ih =>
      have first : ∀ q, First G pol q p → ∀ d o, o ≤ blen d → blen d - o ≤ R →
          parseL G pol d q o ≠ none := fun q hq => ih q hq (h.child hq.child)
      refine parseL_returns (fun q hq => (h.child hq).self.1) h.self.2.1
        (fun q hq d o ho hR => matL_ne hpol ho hR fun o' ho' hR' => first q hq d o' ho' hR')
        first (fun q hq d o ho hR => ?_)
      exact matL_ne hpol ho (Nat.le_refl _) fun o' ho' hR' =>
        ihR (blen d - o) hR q (h.child hq) d o' ho' hR'

end Neure
