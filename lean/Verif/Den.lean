import Verif.Lim
/-!
# The fuel-free evaluator and its equations
-/

namespace Neure

set_option linter.unusedSectionVars false

variable {ι β : Type} [Item ι]

/-- `f` is monotone with limit `g`. -/
def Approx {γ : Type} (f : Nat → Option γ) (g : Option γ) : Prop := Mono f ∧ lim f = g

theorem approx_const {γ : Type} (x : Option γ) : Approx (fun _ => x) x :=
  ⟨Mono.const _, lim_const _⟩

theorem Approx.le {γ : Type} {f : Nat → Option γ} {g : Option γ} (h : Approx f g) (n : Nat) :
    Le (f n) g := fun x hx => by rw [← h.2]; exact (lim_eq_some h.1 x).mpr ⟨n, hx⟩

theorem Approx.lim_eq {γ : Type} {f : Nat → Option γ} {g : Option γ} (h : Approx f g) :
    lim f = g := h.2

theorem Approx.get {γ : Type} {f : Nat → Option γ} {x : γ} (h : Approx f (some x)) :
    ∃ n, ∀ m, n ≤ m → f m = some x := by
  obtain ⟨n, hn⟩ := (lim_eq_some h.1 x).mp h.2
  exact ⟨n, fun m hm => h.1 n m hm x hn⟩

theorem approx_intro {γ : Type} {f : Nat → Option γ} {g : Option γ} (hm : Mono f)
    (h1 : ∀ n, Le (f n) g) (h2 : ∀ x, g = some x → ∃ n, f n = some x) : Approx f g := by
  refine ⟨hm, ?_⟩
  cases hg : g with
  | some x => exact (lim_eq_some hm x).mpr (h2 x hg)
  | none =>
    rw [lim_eq_none hm]
    intro n
    cases hn : f n with
    | none => rfl
    | some x => have := h1 n x hn; rw [hg] at this; cases this

theorem approx_caseR {α γ : Type} {r : Nat → Option (Res α)} {k : Nat → α → Nat → Option (Res γ)}
    {e : Nat → Error → Nat → Option (Res γ)} {r' : Option (Res α)} {k' : α → Nat → Option (Res γ)}
    {e' : Error → Nat → Option (Res γ)}
    (h : Approx r r') (hk : ∀ a o, Approx (fun n => k n a o) (k' a o))
    (he : ∀ a o, Approx (fun n => e n a o) (e' a o)) :
    Approx (fun n => caseR (r n) (k n) (e n)) (caseR r' k' e') := by
  refine ⟨caseR_mono h.1 (fun a o => (hk a o).1) (fun a o => (he a o).1), ?_⟩
  rw [lim_caseR h.1 (fun a o => (hk a o).1) (fun a o => (he a o).1), h.2]
  congr 1
  · funext a o; exact (hk a o).2
  · funext a o; exact (he a o).2

theorem approx_caseO {α γ : Type} {r : Nat → Option (Out α)} {k : Nat → α → Option (Res γ)}
    {e : Nat → Error → Option (Res γ)} {r' : Option (Out α)} {k' : α → Option (Res γ)}
    {e' : Error → Option (Res γ)}
    (h : Approx r r') (hk : ∀ a, Approx (fun n => k n a) (k' a))
    (he : ∀ a, Approx (fun n => e n a) (e' a)) :
    Approx (fun n => caseO (r n) (k n) (e n)) (caseO r' k' e') := by
  refine ⟨caseO_mono h.1 (fun a => (hk a).1) (fun a => (he a).1), ?_⟩
  rw [lim_caseO h.1 (fun a => (hk a).1) (fun a => (he a).1), h.2]
  congr 1
  · funext a; exact (hk a).2
  · funext a; exact (he a).2

theorem approx_addK {γ : Type} {s t : Span} {k : Nat → Span → Option (Res γ)}
    {k' : Span → Option (Res γ)} (hk : ∀ a, Approx (fun n => k n a) (k' a)) :
    Approx (fun n => addK s t (k n)) (addK s t k') := by
  unfold addK; split
  · exact approx_const _
  · exact hk _

theorem approx_remK {γ : Type} {d : List ι} {o : Nat} {k : Nat → Nat → Option (Res γ)}
    {k' : Nat → Option (Res γ)} (hk : ∀ a, Approx (fun n => k n a) (k' a)) :
    Approx (fun n => remK d o (k n)) (remK d o k') := by
  unfold remK; split
  · exact hk _
  · exact approx_const _

theorem approx_ite {γ : Type} {c : Prop} [Decidable c] {a b : Nat → Option γ} {a' b' : Option γ}
    (ha : Approx a a') (hb : Approx b b') :
    Approx (fun n => if c then a n else b n) (if c then a' else b') := by
  split <;> assumption

theorem approx_check {mt : Nat → List ι → Pat ι β → Nat → Option (Res Span)}
    {mt' : List ι → Pat ι β → Nat → Option (Res Span)}
    (h : ∀ d p o, Approx (fun n => mt n d p o) (mt' d p o)) (d : List ι) (o : Nat) (c : Cond ι β)
    (pr : Nat × ι) : Approx (fun n => check (mt n) d o c pr) (check mt' d o c pr) := by
  apply approx_intro
  · intro n m hnm; exact check_le (fun d p o => (h d p o).1 n m hnm) d o c pr
  · intro n; exact check_le (fun d p o => (h d p o).le n) d o c pr
  · intro x hx
    cases c with
    | empty => exact ⟨0, hx⟩
    | fn f => exact ⟨0, hx⟩
    | regex p =>
      unfold check at hx ⊢
      simp only at hx ⊢
      cases ho : origAt d (o + pr.1) with
      | err e => rw [ho] at hx; exact ⟨0, hx⟩
      | panic => rw [ho] at hx; exact ⟨0, hx⟩
      | ok d' =>
        simp only [ho] at hx ⊢
        cases hm : mt' d' p 0 with
        | none => simp [hm] at hx
        | some v =>
          have ha := h d' p 0
          rw [hm] at ha
          obtain ⟨n, hn⟩ := ha.get
          refine ⟨n, ?_⟩
          rw [hn n (Nat.le_refl _)]
          rw [hm] at hx; exact hx

theorem approx_testItem {mt : Nat → List ι → Pat ι β → Nat → Option (Res Span)}
    {mt' : List ι → Pat ι β → Nat → Option (Res Span)}
    (h : ∀ d p o, Approx (fun n => mt n d p o) (mt' d p o)) (d : List ι) (o : Nat) (u : Neu ι)
    (c : Cond ι β) (pr : Nat × ι) :
    Approx (fun n => testItem (mt n) d o u c pr) (testItem mt' d o u c pr) := by
  unfold testItem
  exact approx_ite (approx_check h _ _ _ _) (approx_const _)

theorem approx_scan {t : Nat → Nat × ι → Option (Out Bool)} {t' : Nat × ι → Option (Out Bool)}
    (h : ∀ pr, Approx (fun n => t n pr) (t' pr)) (more : Nat → Bool) (it : List (Nat × ι))
    (cnt : Nat) (beg : Option Nat) :
    Approx (fun n => scan (t n) more cnt beg it) (scan t' more cnt beg it) := by
  apply approx_intro
  · intro n m hnm; exact scan_le (fun pr => (h pr).1 n m hnm) more it cnt beg
  · intro n; exact scan_le (fun pr => (h pr).le n) more it cnt beg
  · induction it generalizing cnt beg with
    | nil => intro x hx; exact ⟨0, hx⟩
    | cons pr it ih =>
      intro x hx
      simp only [scan] at hx ⊢
      by_cases hc : more cnt
      · simp only [hc, if_true] at hx ⊢
        cases ht : t' pr with
        | none => simp [ht] at hx
        | some v =>
          have ha := h pr
          rw [ht] at ha hx
          obtain ⟨n, hn⟩ := ha.get
          rcases v with (_ | _) | _ | _
          · exact ⟨n, by rw [hn n (Nat.le_refl _)]; exact hx⟩
          · obtain ⟨m, hm⟩ := ih _ _ x hx
            refine ⟨max n m, ?_⟩
            rw [hn _ (Nat.le_max_left _ _)]
            exact scan_le (fun pr => (h pr).1 m _ (Nat.le_max_right _ _)) more it _ _ x hm
          · exact ⟨n, by rw [hn n (Nat.le_refl _)]; exact hx⟩
          · exact ⟨n, by rw [hn n (Nat.le_refl _)]; exact hx⟩
      · simp only [hc, Bool.false_eq_true, if_false] at hx ⊢
        exact ⟨0, hx⟩

section
variable {mt : Nat → Pat ι β → Nat → Option (Res Span)} {mt' : Pat ι β → Nat → Option (Res Span)}

theorem approx_choiceLoop (h : ∀ p o, Approx (fun n => mt n p o) (mt' p o)) (e : Error) (beg : Nat)
    (items : List (Pat ι β × Option (Val β))) (o : Nat) :
    Approx (fun n => choiceLoop (mt n) e beg items o) (choiceLoop mt' e beg items o) := by
  induction items generalizing o with
  | nil => exact approx_const _
  | cons it items ih =>
    simp only [choiceLoop]
    exact approx_caseR (h _ _) (fun _ _ => approx_const _) (fun _ _ => ih _)

theorem approx_ltmLoop (h : ∀ p o, Approx (fun n => mt n p o) (mt' p o)) (e : Error) (beg : Nat)
    (items : List (Pat ι β × Option (Val β))) (best : Option Span) (o : Nat) :
    Approx (fun n => ltmLoop (mt n) e beg items best o) (ltmLoop mt' e beg items best o) := by
  induction items generalizing best o with
  | nil => cases best <;> exact approx_const _
  | cons it items ih =>
    simp only [ltmLoop]
    exact approx_caseR (h _ _) (fun _ _ => ih _ _) (fun _ _ => ih _ _)

theorem repLoop_le {mt mt' : Pat ι β → Nat → Option (Res Span)} (h : ∀ p o, Le (mt p o) (mt' p o))
    {p : Pat ι β} {more : Nat → Bool} {fin : Nat → Span → Nat → Option (Res Span)} (n m : Nat)
    (hnm : n ≤ m) (cnt : Nat) (t : Span) (o : Nat) :
    Le (repLoop mt p more fin n cnt t o) (repLoop mt' p more fin m cnt t o) := by
  induction n generalizing m cnt t o with
  | zero => exact Le.none _
  | succ n ih =>
    obtain ⟨m, rfl⟩ : ∃ k, m = k + 1 := ⟨m - 1, by omega⟩
    simp only [repLoop]
    exact ite_le (caseR_le (h _ _) (fun _ _ => addK_le fun _ => ih _ (by omega) _ _ _)
      (fun _ _ => Le.refl _)) (Le.refl _)

theorem sepLoop_le {mt mt' : Pat ι β → Nat → Option (Res Span)} (h : ∀ p o, Le (mt p o) (mt' p o))
    {p s : Pat ι β} {skip : Bool} {more : Nat → Bool}
    {fin : Nat → Span → Nat → Option (Res Span)} (n m : Nat)
    (hnm : n ≤ m) (cnt : Nat) (t : Span) (o : Nat) :
    Le (sepLoop mt p s skip more fin n cnt t o) (sepLoop mt' p s skip more fin m cnt t o) := by
  induction n generalizing m cnt t o with
  | zero => exact Le.none _
  | succ n ih =>
    obtain ⟨m, rfl⟩ : ∃ k, m = k + 1 := ⟨m - 1, by omega⟩
    simp only [sepLoop]
    exact ite_le (caseR_le (h _ _) (fun _ _ => caseR_le (h _ _)
      (fun _ _ => addK_le fun _ => addK_le fun _ => ih _ (by omega) _ _ _)
      (fun _ _ => Le.refl _)) (fun _ _ => Le.refl _)) (Le.refl _)

/-- Fuel-free repetition loop. -/
noncomputable def repL (mt : Pat ι β → Nat → Option (Res Span)) (p : Pat ι β) (more : Nat → Bool)
    (fin : Nat → Span → Nat → Option (Res Span)) (cnt : Nat) (t : Span) (o : Nat) :
    Option (Res Span) := lim fun n => repLoop mt p more fin n cnt t o

/-- Fuel-free separator loop. -/
noncomputable def sepL (mt : Pat ι β → Nat → Option (Res Span)) (p s : Pat ι β) (skip : Bool)
    (more : Nat → Bool) (fin : Nat → Span → Nat → Option (Res Span)) (cnt : Nat) (t : Span)
    (o : Nat) : Option (Res Span) := lim fun n => sepLoop mt p s skip more fin n cnt t o

theorem approx_repLoop_const (mt : Pat ι β → Nat → Option (Res Span)) (p : Pat ι β)
    (more : Nat → Bool) (fin : Nat → Span → Nat → Option (Res Span)) (cnt : Nat) (t : Span)
    (o : Nat) : Approx (fun n => repLoop mt p more fin n cnt t o) (repL mt p more fin cnt t o) :=
  ⟨fun n m h => repLoop_le (fun _ _ => Le.refl _) n m h cnt t o, rfl⟩

theorem approx_sepLoop_const (mt : Pat ι β → Nat → Option (Res Span)) (p s : Pat ι β) (skip : Bool)
    (more : Nat → Bool) (fin : Nat → Span → Nat → Option (Res Span)) (cnt : Nat) (t : Span)
    (o : Nat) : Approx (fun n => sepLoop mt p s skip more fin n cnt t o)
      (sepL mt p s skip more fin cnt t o) :=
  ⟨fun n m h => sepLoop_le (fun _ _ => Le.refl _) n m h cnt t o, rfl⟩

/-- The repetition loop unfolds. -/
theorem repL_eq (mt : Pat ι β → Nat → Option (Res Span)) (p : Pat ι β) (more : Nat → Bool)
    (fin : Nat → Span → Nat → Option (Res Span)) (cnt : Nat) (t : Span) (o : Nat) :
    repL mt p more fin cnt t o =
      if more cnt then
        caseR (mt p o)
          (fun s o' => addK t s fun t' => repL mt p more fin (cnt + 1) t' o')
          (fun _ o' => fin cnt t o')
      else fin cnt t o := by
  have hm := (approx_repLoop_const mt p more fin cnt t o).1
  rw [show repL mt p more fin cnt t o = lim fun n => repLoop mt p more fin n cnt t o from rfl,
    ← lim_succ hm]
  refine Approx.lim_eq (f := fun n => repLoop mt p more fin (n + 1) cnt t o) ?_
  simp only [repLoop]
  exact approx_ite (approx_caseR (approx_const _)
    (fun _ _ => approx_addK fun _ => approx_repLoop_const _ _ _ _ _ _ _)
    (fun _ _ => approx_const _)) (approx_const _)

/-- The separator loop unfolds. -/
theorem sepL_eq (mt : Pat ι β → Nat → Option (Res Span)) (p s : Pat ι β) (skip : Bool)
    (more : Nat → Bool) (fin : Nat → Span → Nat → Option (Res Span)) (cnt : Nat) (t : Span)
    (o : Nat) :
    sepL mt p s skip more fin cnt t o =
      if more cnt then
        caseR (mt p o)
          (fun ps o' =>
            caseR (mt s o')
              (fun ss o'' => addK t ps fun t1 => addK t1 ss fun t2 =>
                sepL mt p s skip more fin (cnt + 1) t2 o'')
              (fun _ o'' => if skip then addK t ps fun t1 => fin (cnt + 1) t1 o''
                else fin cnt t o''))
          (fun _ o' => fin cnt t o')
      else fin cnt t o := by
  have hm := (approx_sepLoop_const mt p s skip more fin cnt t o).1
  rw [show sepL mt p s skip more fin cnt t o =
    lim fun n => sepLoop mt p s skip more fin n cnt t o from rfl, ← lim_succ hm]
  refine Approx.lim_eq (f := fun n => sepLoop mt p s skip more fin (n + 1) cnt t o) ?_
  simp only [sepLoop]
  exact approx_ite (approx_caseR (approx_const _)
    (fun _ _ => approx_caseR (approx_const _)
      (fun _ _ => approx_addK fun _ => approx_addK fun _ => approx_sepLoop_const _ _ _ _ _ _ _ _ _)
      (fun _ _ => approx_const _))
    (fun _ _ => approx_const _)) (approx_const _)

theorem approx_repLoop (h : ∀ p o, Approx (fun n => mt n p o) (mt' p o)) (p : Pat ι β)
    (more : Nat → Bool) (fin : Nat → Span → Nat → Option (Res Span)) (cnt : Nat) (t : Span)
    (o : Nat) :
    Approx (fun n => repLoop (mt n) p more fin n cnt t o) (repL mt' p more fin cnt t o) := by
  apply approx_intro
  · intro n m hnm; exact repLoop_le (fun p o => (h p o).1 n m hnm) n m hnm cnt t o
  · intro n
    exact Le.trans (repLoop_le (fun p o => (h p o).le n) n n (Nat.le_refl _) cnt t o)
      ((approx_repLoop_const mt' p more fin cnt t o).le n)
  · intro x hx
    obtain ⟨k, hk⟩ := (lim_eq_some (approx_repLoop_const mt' p more fin cnt t o).1 x).mp hx
    clear hx
    induction k generalizing cnt t o with
    | zero => simp [repLoop] at hk
    | succ k ih =>
      simp only [repLoop] at hk
      by_cases hc : more cnt
      · simp only [hc, if_true] at hk
        cases hmt : mt' p o with
        | none => simp [hmt, caseR] at hk
        | some v =>
          have ha := h p o
          rw [hmt] at ha hk
          obtain ⟨n, hn⟩ := ha.get
          cases v with
          | panic =>
            refine ⟨n + 1, ?_⟩
            simp only [repLoop, hc, if_true, hn (n + 1) (by omega)]
            exact hk
          | err e o' =>
            refine ⟨n + 1, ?_⟩
            simp only [repLoop, hc, if_true, hn (n + 1) (by omega)]
            exact hk
          | ok s o' =>
            simp only [caseR, addK] at hk
            cases hadd : t.addAssign s with
            | none =>
              refine ⟨n + 1, ?_⟩
              simp only [repLoop, hc, if_true, hn (n + 1) (by omega), caseR, addK, hadd]
              simpa [hadd] using hk
            | some t' =>
              simp only [hadd] at hk
              obtain ⟨m, hm⟩ := ih _ _ _ hk
              refine ⟨max n m + 1, ?_⟩
              simp only [repLoop, hc, if_true, hn (max n m + 1) (by omega), caseR, addK, hadd]
              exact repLoop_le (fun p o => (h p o).1 m _ (by omega)) m _ (by omega) _ _ _ x hm
      · simp only [hc, Bool.false_eq_true, if_false] at hk
        refine ⟨1, ?_⟩
        simp only [repLoop, hc, Bool.false_eq_true, if_false]; exact hk

theorem approx_sepLoop (h : ∀ p o, Approx (fun n => mt n p o) (mt' p o)) (p s : Pat ι β)
    (skip : Bool) (more : Nat → Bool) (fin : Nat → Span → Nat → Option (Res Span)) (cnt : Nat)
    (t : Span) (o : Nat) :
    Approx (fun n => sepLoop (mt n) p s skip more fin n cnt t o)
      (sepL mt' p s skip more fin cnt t o) := by
  apply approx_intro
  · intro n m hnm; exact sepLoop_le (fun p o => (h p o).1 n m hnm) n m hnm cnt t o
  · intro n
    exact Le.trans (sepLoop_le (fun p o => (h p o).le n) n n (Nat.le_refl _) cnt t o)
      ((approx_sepLoop_const mt' p s skip more fin cnt t o).le n)
  · intro x hx
    obtain ⟨k, hk⟩ := (lim_eq_some (approx_sepLoop_const mt' p s skip more fin cnt t o).1 x).mp hx
    clear hx
    induction k generalizing cnt t o with
    | zero => simp [sepLoop] at hk
    | succ k ih =>
      -- the family obtained by replacing the recursive call by its own limit
      have key : Approx (fun n => if more cnt then
          caseR (mt n p o)
            (fun ps o' => caseR (mt n s o')
              (fun ss o'' => addK t ps fun t1 => addK t1 ss fun t2 =>
                sepLoop mt' p s skip more fin k (cnt + 1) t2 o'')
              (fun _ o'' => if skip then addK t ps fun t1 => fin (cnt + 1) t1 o''
                else fin cnt t o''))
            (fun _ o' => fin cnt t o')
          else fin cnt t o) (sepLoop mt' p s skip more fin (k + 1) cnt t o) := by
        simp only [sepLoop]
        exact approx_ite (approx_caseR (h _ _) (fun _ _ => approx_caseR (h _ _)
          (fun _ _ => approx_const _) (fun _ _ => approx_const _))
          (fun _ _ => approx_const _)) (approx_const _)
      rw [hk] at key
      obtain ⟨n, hn⟩ := key.get
      have hn0 := hn n (Nat.le_refl _)
      by_cases hc : more cnt
      · simp only [hc, if_true] at hn0
        cases hmt : mt n p o with
        | none => simp [hmt, caseR] at hn0
        | some v =>
          have hp : ∀ m, n ≤ m → mt m p o = some v := fun m hm => (h p o).1 n m hm v hmt
          rw [hmt] at hn0
          cases v with
          | panic =>
            exact ⟨n + 1, by simp only [sepLoop, hc, if_true, hp (n + 1) (by omega)]; exact hn0⟩
          | err e o' =>
            exact ⟨n + 1, by simp only [sepLoop, hc, if_true, hp (n + 1) (by omega)]; exact hn0⟩
          | ok ps o' =>
            simp only [caseR] at hn0
            cases hms : mt n s o' with
            | none => simp [hms] at hn0
            | some w =>
              have hs : ∀ m, n ≤ m → mt m s o' = some w := fun m hm => (h s o').1 n m hm w hms
              rw [hms] at hn0
              cases w with
              | panic =>
                exact ⟨n + 1, by
                  simp only [sepLoop, hc, if_true, hp (n + 1) (by omega), caseR,
                    hs (n + 1) (by omega)]; exact hn0⟩
              | err e o'' =>
                exact ⟨n + 1, by
                  simp only [sepLoop, hc, if_true, hp (n + 1) (by omega), caseR,
                    hs (n + 1) (by omega)]; exact hn0⟩
              | ok ss o'' =>
                simp only [addK] at hn0
                cases h1 : t.addAssign ps with
                | none =>
                  exact ⟨n + 1, by
                    simp only [sepLoop, hc, if_true, hp (n + 1) (by omega), caseR,
                      hs (n + 1) (by omega), addK, h1]; simpa [h1] using hn0⟩
                | some t1 =>
                  simp only [h1] at hn0
                  cases h2 : t1.addAssign ss with
                  | none =>
                    exact ⟨n + 1, by
                      simp only [sepLoop, hc, if_true, hp (n + 1) (by omega), caseR,
                        hs (n + 1) (by omega), addK, h1, h2]; simpa [h2] using hn0⟩
                  | some t2 =>
                    simp only [h2] at hn0
                    obtain ⟨m, hm⟩ := ih _ _ _ hn0
                    refine ⟨max n m + 1, ?_⟩
                    simp only [sepLoop, hc, if_true, hp (max n m + 1) (by omega), caseR,
                      hs (max n m + 1) (by omega), addK, h1, h2]
                    exact sepLoop_le (fun p o => (h p o).1 m _ (by omega)) m _ (by omega)
                      _ _ _ x hm
      · simp only [hc, Bool.false_eq_true, if_false] at hn0
        refine ⟨1, ?_⟩
        simp only [sepLoop, hc, Bool.false_eq_true, if_false]; exact hn0
end

/-- Fuel-free one-level evaluator. -/
noncomputable def stepL (G : Rules ι β) (mt : List ι → Pat ι β → Nat → Option (Res Span))
    (pr : Pat ι β → Nat → Option (Res Span)) (d : List ι) (p : Pat ι β) (o : Nat) :
    Option (Res Span) := lim fun n => step G n mt pr d p o

set_option maxHeartbeats 1000000 in
theorem approx_step {G : Rules ι β} {mt : Nat → List ι → Pat ι β → Nat → Option (Res Span)}
    {mt' : List ι → Pat ι β → Nat → Option (Res Span)}
    {pr : Nat → Pat ι β → Nat → Option (Res Span)} {pr' : Pat ι β → Nat → Option (Res Span)}
    (hm : ∀ d p o, Approx (fun n => mt n d p o) (mt' d p o))
    (hp : ∀ p o, Approx (fun n => pr n p o) (pr' p o)) (d : List ι) (p : Pat ι β) (o : Nat) :
    Approx (fun n => step G n (mt n) (pr n) d p o) (stepL G mt' pr' d p o) := by
  have c {γ : Type} (x : Option γ) : Approx (fun _ => x) x := approx_const x
  have done {f : Nat → Option (Res Span)} {g h : Option (Res Span)} (h1 : Approx f g)
      (h2 : h = g) : Approx f h := h2 ▸ h1
  have test := fun (o : Nat) (u : Neu ι) (cd : Cond ι β) => approx_testItem hm d o u cd
  cases p
  case empty => exact done (c _) (lim_const _)
  case fail => exact done (c _) (lim_const _)
  case start => exact done (c _) (lim_const _)
  case anchorEnd => exact done (c _) (lim_const _)
  case consume => exact done (c _) (lim_const _)
  case consumeAll => exact done (c _) (lim_const _)
  case lit => exact done (c _) (lim_const _)
  case native => exact done (c _) (lim_const _)
  case once u cd =>
    refine done (g := onceParse mt' d u cd o) ?_ (lim_const _)
    simp only [step]; unfold onceParse
    refine approx_caseO (c _) (fun it => approx_remK fun _ => ?_) (fun _ => c _)
    cases it with
    | nil => exact c _
    | cons pr it => exact approx_caseO (test _ _ _ _) (fun _ => c _) (fun _ => c _)
  case optU u cd =>
    refine done (g := optUParse mt' d u cd o) ?_ (lim_const _)
    simp only [step]; unfold optUParse
    refine approx_remK fun _ => approx_caseO (c _) (fun it => ?_) (fun _ => c _)
    cases it with
    | nil => exact c _
    | cons pr it => exact approx_caseO (test _ _ _ _) (fun _ => c _) (fun _ => c _)
  case many0 u cd =>
    refine done (g := many0Parse mt' d u cd o) ?_ (lim_const _)
    simp only [step]; unfold many0Parse
    exact approx_remK fun _ => approx_caseO (c _) (fun it =>
      approx_caseO (approx_scan (test _ _ _) _ _ _ _) (fun _ => c _) (fun _ => c _)) (fun _ => c _)
  case many1 u cd =>
    refine done (g := many1Parse mt' d u cd o) ?_ (lim_const _)
    simp only [step]; unfold many1Parse
    exact approx_caseO (c _) (fun it => approx_remK fun _ =>
      approx_caseO (approx_scan (test _ _ _) _ _ _ _) (fun _ => c _) (fun _ => c _)) (fun _ => c _)
  case between m k u cd =>
    refine done (g := betweenParse mt' d m k u cd o) ?_ (lim_const _)
    simp only [step]; unfold betweenParse
    exact approx_caseO (c _) (fun it => approx_remK fun _ => approx_ite
      (approx_caseO (approx_scan (test _ _ _) _ _ _ _) (fun _ => c _) (fun _ => c _)) (c _))
      (fun _ => c _)
  case times r u cd =>
    refine done (g := timesParse mt' d r u cd o) ?_ (lim_const _)
    simp only [step]; unfold timesParse
    exact approx_caseO (c _) (fun it => approx_remK fun _ => approx_ite
      (approx_caseO (approx_scan (test _ _ _) _ _ _ _) (fun _ => c _) (fun _ => c _)) (c _))
      (fun _ => c _)
  case thenU u v cd =>
    refine done (g := thenUParse mt' d u v cd o) ?_ (lim_const _)
    simp only [step]; unfold thenUParse
    refine approx_caseO (c _) (fun it => approx_remK fun _ => approx_ite ?_ (c _)) (fun _ => c _)
    match it with
    | [] => exact c _
    | [_] => exact c _
    | fst :: snd :: it' =>
      exact approx_caseO (test _ _ _ _) (fun _ => approx_ite
        (approx_caseO (test _ _ _ _) (fun _ => c _) (fun _ => c _)) (c _)) (fun _ => c _)
  case assert q v =>
    refine done ?_ (lim_const _)
    simp only [step]
    exact approx_caseR (hm _ _ _) (fun _ _ => c _) (fun _ _ => c _)
  case thn a b =>
    refine done ?_ (lim_const _)
    simp only [step]
    exact approx_caseR (hm _ _ _) (fun _ _ => approx_caseR (hm _ _ _) (fun _ _ => c _)
      (fun _ _ => c _)) (fun _ _ => c _)
  case pre a b =>
    refine done ?_ (lim_const _)
    simp only [step]
    exact approx_caseR (hm _ _ _) (fun _ _ => approx_caseR (hm _ _ _) (fun _ _ => c _)
      (fun _ _ => c _)) (fun _ _ => c _)
  case suf a b =>
    refine done ?_ (lim_const _)
    simp only [step]
    exact approx_caseR (hm _ _ _) (fun _ _ => approx_caseR (hm _ _ _) (fun _ _ => c _)
      (fun _ _ => c _)) (fun _ _ => c _)
  case ifThen a t b =>
    refine done ?_ (lim_const _)
    simp only [step]
    exact approx_caseR (hm _ _ _) (fun _ _ => approx_caseR (hm _ _ _)
      (fun _ _ => approx_addK fun _ => approx_caseR (hm _ _ _) (fun _ _ => c _) (fun _ _ => c _))
      (fun _ _ => c _)) (fun _ _ => c _)
  case enclose a b e =>
    refine done ?_ (lim_const _)
    simp only [step]
    exact approx_caseR (hm _ _ _) (fun _ _ => approx_caseR (hm _ _ _)
      (fun _ _ => approx_addK fun _ => approx_caseR (hm _ _ _) (fun _ _ => c _) (fun _ _ => c _))
      (fun _ _ => c _)) (fun _ _ => c _)
  case sepOnce a b e =>
    refine done ?_ (lim_const _)
    simp only [step]
    exact approx_caseR (hm _ _ _) (fun _ _ => approx_addK fun _ => approx_caseR (hm _ _ _)
      (fun _ _ => approx_addK fun _ => approx_caseR (hm _ _ _) (fun _ _ => c _) (fun _ _ => c _))
      (fun _ _ => c _)) (fun _ _ => c _)
  case or a b =>
    refine done ?_ (lim_const _)
    simp only [step]
    exact approx_caseR (hm _ _ _) (fun _ _ => c _) (fun _ _ => approx_caseR (hm _ _ _)
      (fun _ _ => c _) (fun _ _ => c _))
  case longest a b =>
    refine done ?_ (lim_const _)
    simp only [step]
    exact approx_caseR (hm _ _ _) (fun _ _ => approx_caseR (hm _ _ _)
      (fun _ _ => c _) (fun _ _ => c _)) (fun _ _ => approx_caseR (hm _ _ _)
      (fun _ _ => c _) (fun _ _ => c _))
  case opt q =>
    refine done ?_ (lim_const _)
    simp only [step]
    exact approx_caseR (hm _ _ _) (fun _ _ => c _) (fun _ _ => c _)
  case choice e items =>
    refine done ?_ (lim_const _)
    simp only [step]
    exact approx_choiceLoop (hm d) _ _ _ _
  case ltm e items =>
    refine done ?_ (lim_const _)
    simp only [step]
    exact approx_ltmLoop (hm d) _ _ _ _ _
  case rep q r => exact done (approx_repLoop (hm d) _ _ _ _ _ _) rfl
  case rep2 q m k => exact done (approx_repLoop (hm d) _ _ _ _ _ _) rfl
  case collect q k => exact done (approx_repLoop (hm d) _ _ _ _ _ _) rfl
  case sep q s k m => exact done (approx_sepLoop (hm d) _ _ _ _ _ _ _ _) rfl
  case sep2 q s k m l => exact done (approx_sepLoop (hm d) _ _ _ _ _ _ _ _) rfl
  case sepCollect q s k m => exact done (approx_sepLoop (hm d) _ _ _ _ _ _ _ _) rfl
  case branch t a b =>
    refine done ?_ (lim_const _)
    simp only [step]
    exact approx_caseO (c _) (fun _ => approx_caseR (hm _ _ _) (fun _ _ => c _) (fun _ _ => c _))
      (fun _ => c _)
  case map q f => exact done (hm _ _ _) (lim_const _)
  case pat q => exact done (hm _ _ _) (lim_const _)
  case build q f =>
    refine done ?_ (lim_const _)
    simp only [step]
    exact approx_caseR (hm _ _ _) (fun _ _ => approx_caseR (c _) (fun _ _ =>
      approx_caseR (hm _ _ _) (fun _ _ => c _) (fun _ _ => c _)) (fun _ _ => c _)) (fun _ _ => c _)
  case dthen => exact done (c _) (lim_const _)
  case cell i =>
    refine done ?_ (lim_const _)
    simp only [step]
    cases G i with
    | none => exact c _
    | some q => exact hp _ _

theorem approx_matWith {pr : Nat → Option (Pat ι β) → List ι → Pat ι β → Nat → Option (Res Span)}
    {pr' : Option (Pat ι β) → List ι → Pat ι β → Nat → Option (Res Span)}
    (h : ∀ pol d p o, Approx (fun n => pr n pol d p o) (pr' pol d p o)) (pol : Option (Pat ι β))
    (d : List ι) (p : Pat ι β) (o : Nat) :
    Approx (fun n => matWith (pr n) pol d p o) (matWith pr' pol d p o) := by
  cases pol with
  | none => exact h _ _ _ _
  | some q =>
    exact approx_caseR (h _ _ _ _) (fun _ _ => h _ _ _ _) (fun _ _ => approx_const _)

theorem matWith_le {pr pr' : Option (Pat ι β) → List ι → Pat ι β → Nat → Option (Res Span)}
    (h : ∀ pol d p o, Le (pr pol d p o) (pr' pol d p o)) (pol : Option (Pat ι β))
    (d : List ι) (p : Pat ι β) (o : Nat) :
    Le (matWith pr pol d p o) (matWith pr' pol d p o) := by
  cases pol with
  | none => exact h _ _ _ _
  | some q => exact caseR_le (h _ _ _ _) (fun _ _ => h _ _ _ _) (fun _ _ => Le.refl _)

/-- More fuel never changes a result. -/
theorem parse_le_succ (G : Rules ι β) (n : Nat) (pol : Option (Pat ι β)) (d : List ι) (p : Pat ι β)
    (o : Nat) : Le (parse G n pol d p o) (parse G (n + 1) pol d p o) := by
  induction n generalizing pol d p o with
  | zero => exact Le.none _
  | succ n ih =>
    -- the two-element chain `parse n ≤ parse (n+1) ≤ parse (n+1) ≤ …`
    let ch : Nat → Option (Pat ι β) → List ι → Pat ι β → Nat → Option (Res Span) :=
      fun k => if k ≤ n then parse G n else parse G (n + 1)
    have hch : ∀ pol d p o, Approx (fun k => ch k pol d p o) (parse G (n + 1) pol d p o) := by
      intro pol d p o
      apply approx_intro
      · intro a b hab
        by_cases ha : a ≤ n
        · by_cases hb : b ≤ n
          · simp only [ch, ha, hb, if_true]; exact Le.refl _
          · simp only [ch, ha, hb, if_true, if_false]; exact ih pol d p o
        · have hb : ¬ b ≤ n := by omega
          simp only [ch, ha, hb, if_false]; exact Le.refl _
      · intro k
        by_cases hk : k ≤ n
        · simp only [ch, hk, if_true]; exact ih pol d p o
        · simp only [ch, hk, if_false]; exact Le.refl _
      · intro x hx
        refine ⟨n + 1, ?_⟩
        have : ¬ n + 1 ≤ n := by omega
        simp only [ch, this, if_false]; exact hx
    have := (approx_step (G := G) (hm := fun d p o => approx_matWith hch pol d p o)
      (hp := fun p o => hch pol d p o) d p o).1 n (n + 1) (by omega)
    have h1 : ch n = parse G n := by simp [ch]
    have h2 : ch (n + 1) = parse G (n + 1) := by
      have : ¬ n + 1 ≤ n := by omega
      simp only [ch, this, if_false]
    simp only [h1, h2] at this
    exact this

theorem parse_mono (G : Rules ι β) (pol : Option (Pat ι β)) (d : List ι) (p : Pat ι β) (o : Nat) :
    Mono fun n => parse G n pol d p o := by
  intro n m h
  induction h with
  | refl => exact Le.refl _
  | step _ ih => exact Le.trans ih (parse_le_succ _ _ _ _ _ _)

/-- `p.try_parse(ctx)` without fuel; `none` = never returns. -/
noncomputable def parseL (G : Rules ι β) (pol : Option (Pat ι β)) (d : List ι) (p : Pat ι β)
    (o : Nat) : Option (Res Span) := lim fun n => parse G n pol d p o

theorem approx_parse (G : Rules ι β) (pol : Option (Pat ι β)) (d : List ι) (p : Pat ι β) (o : Nat) :
    Approx (fun n => parse G n pol d p o) (parseL G pol d p o) := ⟨parse_mono _ _ _ _ _, rfl⟩

/-- `ctx.try_mat(&p)` without fuel; `none` = never returns. -/
noncomputable def matL (G : Rules ι β) (pol : Option (Pat ι β)) (d : List ι) (p : Pat ι β)
    (o : Nat) : Option (Res Span) := matWith (parseL G) pol d p o

theorem approx_tryMat (G : Rules ι β) (pol : Option (Pat ι β)) (d : List ι) (p : Pat ι β)
    (o : Nat) : Approx (fun n => tryMat G n pol d p o) (matL G pol d p o) :=
  approx_matWith (approx_parse G) pol d p o

theorem tryMat_mono (G : Rules ι β) (pol : Option (Pat ι β)) (d : List ι) (p : Pat ι β) (o : Nat) :
    Mono fun n => tryMat G n pol d p o := (approx_tryMat G pol d p o).1

theorem runs_iff {G : Rules ι β} {pol : Option (Pat ι β)} {d : List ι} {p : Pat ι β} {o : Nat}
    {r : Res Span} : Runs G pol d p o r ↔ matL G pol d p o = some r := by
  rw [← (approx_tryMat G pol d p o).2, lim_eq_some (tryMat_mono _ _ _ _ _)]; rfl

theorem parses_iff {G : Rules ι β} {pol : Option (Pat ι β)} {d : List ι} {p : Pat ι β} {o : Nat}
    {r : Res Span} : Parses G pol d p o r ↔ parseL G pol d p o = some r := by
  rw [← (approx_parse G pol d p o).2, lim_eq_some (parse_mono _ _ _ _ _)]; rfl

/-- The result of a match is unique. -/
theorem Runs.unique {G : Rules ι β} {pol : Option (Pat ι β)} {d : List ι} {p : Pat ι β} {o : Nat}
    {r r' : Res Span} (h : Runs G pol d p o r) (h' : Runs G pol d p o r') : r = r' := by
  rw [runs_iff] at h h'; rw [h] at h'; exact Option.some.inj h'

/-- The fuel-free evaluator satisfies the evaluator's equation. -/
theorem parseL_eq (G : Rules ι β) (pol : Option (Pat ι β)) (d : List ι) (p : Pat ι β) (o : Nat) :
    parseL G pol d p o = stepL G (matL G pol) (parseL G pol d) d p o := by
  have h := approx_step (G := G) (hm := fun d p o => approx_tryMat G pol d p o)
    (hp := fun p o => approx_parse G pol d p o) d p o
  rw [← h.2]
  rw [show parseL G pol d p o = lim fun n => parse G n pol d p o from rfl,
    ← lim_succ (parse_mono G pol d p o)]
  rfl

theorem matL_none (G : Rules ι β) (d : List ι) (p : Pat ι β) (o : Nat) :
    matL G none d p o = parseL G none d p o := rfl

theorem matL_some (G : Rules ι β) (q : Pat ι β) (d : List ι) (p : Pat ι β) (o : Nat) :
    matL G (some q) d p o = caseR (matL G none d q o) (fun _ o' => parseL G (some q) d p o')
      (fun e o' => some (.err e o')) := rfl

end Neure
