import Verif.Ctor
import Verif.Den
/-!
# `construct` without fuel

`conL` is the limit of `con`; it satisfies the equations of `construct` without
fuel, constructor by constructor (`conL_…`).
-/

namespace Neure

set_option linter.unusedSectionVars false

variable {ι β σ : Type} [Item ι]

theorem bind_le {α γ : Type} {r r' : Option α} {k k' : α → Option γ} (h : Le r r')
    (hk : ∀ a, Le (k a) (k' a)) : Le (r.bind k) (r'.bind k') := by
  intro x hx
  cases r with
  | none => simp at hx
  | some v => rw [h v rfl]; exact hk _ _ hx

theorem approx_bind {α γ : Type} {r : Nat → Option α} {k : Nat → α → Option γ}
    {r' : Option α} {k' : α → Option γ} (h : Approx r r')
    (hk : ∀ a, Approx (fun n => k n a) (k' a)) :
    Approx (fun n => (r n).bind (k n)) (r'.bind k') := by
  apply approx_intro
  · intro n m hnm; exact bind_le (h.1 n m hnm) fun a => (hk a).1 n m hnm
  · intro n; exact bind_le (h.le n) fun a => (hk a).le n
  · intro x hx
    cases hr : r' with
    | none => simp [hr] at hx
    | some v =>
      rw [hr] at hx h
      obtain ⟨n, hn⟩ := h.get
      have hv := hk v
      rw [show k' v = some x from hx] at hv
      obtain ⟨m, hm⟩ := hv.get
      refine ⟨max n m, ?_⟩
      show (r (max n m)).bind (k (max n m)) = some x
      rw [hn _ (Nat.le_max_left _ _)]
      exact hm _ (Nat.le_max_right _ _)

theorem caseC_eq_bind {α γ : Type} (r : Option (CRes σ α)) (k : α → σ → Nat → Option (CRes σ γ))
    (e : Error → σ → Nat → Option (CRes σ γ)) :
    caseC r k e = r.bind fun x => match x with
      | .panic => some .panic
      | .ok a st o => k a st o
      | .err x st o => e x st o := by
  rcases r with _ | (_ | _ | _) <;> rfl

theorem caseM_eq_bind {α γ : Type} (r : Option (Res α)) (k : α → Nat → Option (CRes σ γ))
    (e : Error → Nat → Option (CRes σ γ)) :
    caseM r k e = r.bind fun x => match x with
      | .panic => some .panic
      | .ok a o => k a o
      | .err x o => e x o := by
  rcases r with _ | (_ | _ | _) <;> rfl

theorem caseC_le {α γ : Type} {r r' : Option (CRes σ α)} {k k' : α → σ → Nat → Option (CRes σ γ)}
    {e e' : Error → σ → Nat → Option (CRes σ γ)} (h : Le r r')
    (hk : ∀ a st o, Le (k a st o) (k' a st o)) (he : ∀ a st o, Le (e a st o) (e' a st o)) :
    Le (caseC r k e) (caseC r' k' e') := by
  rw [caseC_eq_bind, caseC_eq_bind]
  refine bind_le h fun a => ?_
  cases a
  · exact hk _ _ _
  · exact he _ _ _
  · exact Le.refl _

theorem caseM_le {α γ : Type} {r r' : Option (Res α)} {k k' : α → Nat → Option (CRes σ γ)}
    {e e' : Error → Nat → Option (CRes σ γ)} (h : Le r r')
    (hk : ∀ a o, Le (k a o) (k' a o)) (he : ∀ a o, Le (e a o) (e' a o)) :
    Le (caseM r k e) (caseM r' k' e') := by
  rw [caseM_eq_bind, caseM_eq_bind]
  refine bind_le h fun a => ?_
  cases a
  · exact hk _ _
  · exact he _ _
  · exact Le.refl _

theorem approx_caseC {α γ : Type} {r : Nat → Option (CRes σ α)}
    {k : Nat → α → σ → Nat → Option (CRes σ γ)} {e : Nat → Error → σ → Nat → Option (CRes σ γ)}
    {r' : Option (CRes σ α)} {k' : α → σ → Nat → Option (CRes σ γ)}
    {e' : Error → σ → Nat → Option (CRes σ γ)}
    (h : Approx r r') (hk : ∀ a st o, Approx (fun n => k n a st o) (k' a st o))
    (he : ∀ a st o, Approx (fun n => e n a st o) (e' a st o)) :
    Approx (fun n => caseC (r n) (k n) (e n)) (caseC r' k' e') := by
  simp only [caseC_eq_bind]
  refine approx_bind h fun a => ?_
  cases a
  · exact hk _ _ _
  · exact he _ _ _
  · exact approx_const _

theorem approx_caseM {α γ : Type} {r : Nat → Option (Res α)}
    {k : Nat → α → Nat → Option (CRes σ γ)} {e : Nat → Error → Nat → Option (CRes σ γ)}
    {r' : Option (Res α)} {k' : α → Nat → Option (CRes σ γ)}
    {e' : Error → Nat → Option (CRes σ γ)}
    (h : Approx r r') (hk : ∀ a o, Approx (fun n => k n a o) (k' a o))
    (he : ∀ a o, Approx (fun n => e n a o) (e' a o)) :
    Approx (fun n => caseM (r n) (k n) (e n)) (caseM r' k' e') := by
  simp only [caseM_eq_bind]
  refine approx_bind h fun a => ?_
  cases a
  · exact hk _ _
  · exact he _ _
  · exact approx_const _

theorem approx_caseT {α γ : Type} {r : Out α}
    {k : Nat → α → Option (CRes σ γ)} {e : Nat → Error → Option (CRes σ γ)}
    {k' : α → Option (CRes σ γ)} {e' : Error → Option (CRes σ γ)}
    (hk : ∀ a, Approx (fun n => k n a) (k' a)) (he : ∀ a, Approx (fun n => e n a) (e' a)) :
    Approx (fun n => caseT r (k n) (e n)) (caseT r k' e') := by
  cases r
  · exact hk _
  · exact he _
  · exact approx_const _

/-! ## Loops -/

section Loop
variable {S γ : Type}

/-- The limit of a loop run with diagonal fuel. -/
theorem approx_loop {g : Nat → Nat → S → Option γ} {g' : Nat → S → Option γ}
    {body : Nat → (S → Option γ) → S → Option γ} {body' : (S → Option γ) → S → Option γ}
    (h0 : ∀ n s, g n 0 s = none) (hs : ∀ n k s, g n (k + 1) s = body n (g n k) s)
    (h0' : ∀ s, g' 0 s = none) (hs' : ∀ k s, g' (k + 1) s = body' (g' k) s)
    (hle : ∀ n m, n ≤ m → ∀ r r', (∀ s, Le (r s) (r' s)) → ∀ s, Le (body n r s) (body m r' s))
    (hle' : ∀ r r', (∀ s, Le (r s) (r' s)) → ∀ s, Le (body' r s) (body' r' s))
    (hc : ∀ (r : Nat → S → Option γ) (r' : S → Option γ), (∀ s, Approx (fun n => r n s) (r' s)) →
      ∀ s, Approx (fun n => body n (r n) s) (body' r' s)) (s : S) :
    Approx (fun n => g n n s) (lim fun k => g' k s) := by
  have mono : ∀ n m k l, n ≤ m → k ≤ l → ∀ s, Le (g n k s) (g m l s) := by
    intro n m k
    induction k with
    | zero => intro l _ _ s; rw [h0]; exact Le.none _
    | succ k ih =>
      intro l hnm hkl s
      obtain ⟨l, rfl⟩ : ∃ j, l = j + 1 := ⟨l - 1, by omega⟩
      rw [hs, hs]
      exact hle n m hnm _ _ (ih l hnm (by omega)) s
  have mono' : Mono fun k => g' k s := by
    intro k l hkl
    show Le (g' k s) (g' l s)
    induction k generalizing l s with
    | zero => rw [h0']; exact Le.none _
    | succ k ih =>
      obtain ⟨l, rfl⟩ : ∃ j, l = j + 1 := ⟨l - 1, by omega⟩
      rw [hs', hs']
      exact hle' _ _ (fun s => ih s l (by omega)) s
  have fixed : ∀ k s, Approx (fun n => g n k s) (g' k s) := by
    intro k
    induction k with
    | zero => intro s; simp only [h0, h0']; exact approx_const _
    | succ k ih => intro s; simp only [hs, hs']; exact hc _ _ ih s
  apply approx_intro
  · intro n m hnm; exact mono n m n m hnm hnm s
  · intro n x hx
    exact (lim_eq_some mono' x).mpr ⟨n, (fixed n s).le n x hx⟩
  · intro x hx
    obtain ⟨k, hk⟩ := (lim_eq_some mono' x).mp hx
    have h := fixed k s
    rw [hk] at h
    obtain ⟨n, hn⟩ := h.get
    exact ⟨max n k, mono n _ k _ (Nat.le_max_left _ _) (Nat.le_max_right _ _) s x
      (hn n (Nat.le_refl _))⟩

/-- The limit of a loop unfolds. -/
theorem loop_eq {g' : Nat → S → Option γ} {body' : (S → Option γ) → S → Option γ}
    (h0' : ∀ s, g' 0 s = none) (hs' : ∀ k s, g' (k + 1) s = body' (g' k) s)
    (hle' : ∀ r r', (∀ s, Le (r s) (r' s)) → ∀ s, Le (body' r s) (body' r' s))
    (hc : ∀ (r : Nat → S → Option γ) (r' : S → Option γ), (∀ s, Approx (fun n => r n s) (r' s)) →
      ∀ s, Approx (fun n => body' (r n) s) (body' r' s)) (s : S) :
    lim (fun k => g' k s) = body' (fun s => lim fun k => g' k s) s := by
  have mono' : ∀ s, Mono fun k => g' k s := by
    intro s k l hkl
    show Le (g' k s) (g' l s)
    induction k generalizing l s with
    | zero => rw [h0']; exact Le.none _
    | succ k ih =>
      obtain ⟨l, rfl⟩ : ∃ j, l = j + 1 := ⟨l - 1, by omega⟩
      rw [hs', hs']
      exact hle' _ _ (fun s => ih s l (by omega)) s
  have h := hc g' (fun s => lim fun k => g' k s) (fun s => ⟨mono' s, rfl⟩) s
  have h2 := h.2
  simp only [← hs'] at h2
  rw [← h2]
  exact (lim_succ (mono' s)).symm

end Loop

section
variable {cn : Nat → Pat ι β → σ → Nat → Option (CRes σ (Val β))}
  {cn' : Pat ι β → σ → Nat → Option (CRes σ (Val β))}

theorem approx_conChoice (h : ∀ p st o, Approx (fun n => cn n p st o) (cn' p st o)) (e : Error)
    (beg : Nat) (items : List (Pat ι β × Option (Val β))) (st : σ) (o : Nat) :
    Approx (fun n => conChoice (cn n) e beg items st o) (conChoice cn' e beg items st o) := by
  induction items generalizing st o with
  | nil => exact approx_const _
  | cons it items ih =>
    simp only [conChoice]
    exact approx_caseC (h _ _ _) (fun _ _ _ => approx_const _) (fun _ _ _ => ih _ _)

theorem approx_conLtm (h : ∀ p st o, Approx (fun n => cn n p st o) (cn' p st o)) (e : Error)
    (beg : Nat) (items : List (Pat ι β × Option (Val β))) (best : Option (Val β)) (stop : Nat)
    (st : σ) (o : Nat) :
    Approx (fun n => conLtm (cn n) e beg items best stop st o)
      (conLtm cn' e beg items best stop st o) := by
  induction items generalizing best stop st o with
  | nil => cases best <;> exact approx_const _
  | cons it items ih =>
    simp only [conLtm]
    exact approx_caseC (h _ _ _) (fun _ _ _ => approx_ite (ih _ _ _ _) (ih _ _ _ _))
      (fun _ _ _ => ih _ _ _ _)

end

section Rep

/-- Loop state of `conRep` and `conSep`. -/
structure LS (β σ : Type) where
  cnt : Nat
  vals : List (Val β)
  st : σ
  o : Nat

/-- Body of `conRep`. -/
def repBody (cn : Pat ι β → σ → Nat → Option (CRes σ (Val β))) (p : Pat ι β) (more room : Nat → Bool)
    (fin : Nat → List (Val β) → σ → Nat → Option (CRes σ (Val β)))
    (r : LS β σ → Option (CRes σ (Val β))) (s : LS β σ) : Option (CRes σ (Val β)) :=
  if more s.cnt then
    caseC (cn p s.st s.o)
      (fun v st1 o1 => if room s.cnt then r ⟨s.cnt + 1, s.vals ++ [v], st1, o1⟩ else some .panic)
      (fun _ st1 o1 => fin s.cnt s.vals st1 o1)
  else fin s.cnt s.vals s.st s.o

/-- Body of `conSep`. -/
def sepBody (cn : Pat ι β → σ → Nat → Option (CRes σ (Val β))) (ms : Nat → Option (Res Span))
    (p : Pat ι β) (skip : Bool) (more room : Nat → Bool)
    (fin : Nat → List (Val β) → σ → Nat → Option (CRes σ (Val β)))
    (r : LS β σ → Option (CRes σ (Val β))) (s : LS β σ) : Option (CRes σ (Val β)) :=
  if more s.cnt then
    caseC (cn p s.st s.o)
      (fun v st1 o1 => caseM (ms o1)
        (fun _ o2 => if room s.cnt then r ⟨s.cnt + 1, s.vals ++ [v], st1, o2⟩ else some .panic)
        (fun _ o2 => if skip then
            if room s.cnt then fin (s.cnt + 1) (s.vals ++ [v]) st1 o2 else some .panic
          else fin s.cnt s.vals st1 o2))
      (fun _ st1 o1 => fin s.cnt s.vals st1 o1)
  else fin s.cnt s.vals s.st s.o

/-- Body of `conSepCollect`. -/
def sepCBody (cn : Pat ι β → σ → Nat → Option (CRes σ (Val β))) (ms : Nat → Option (Res Span))
    (p : Pat ι β) (skip : Bool)
    (fin : Nat → List (Val β) → σ → Nat → Option (CRes σ (Val β)))
    (r : Bool × LS β σ → Option (CRes σ (Val β))) (s : Bool × LS β σ) : Option (CRes σ (Val β)) :=
  caseC (cn p s.2.st s.2.o)
    (fun v st1 o1 => caseM (ms o1)
      (fun _ o2 => if s.1 then fin s.2.cnt s.2.vals st1 o2
        else r (false, ⟨s.2.cnt + 1, s.2.vals ++ [v], st1, o2⟩))
      (fun _ o2 => if s.1 then fin s.2.cnt s.2.vals st1 o2
        else if skip then r (true, ⟨s.2.cnt + 1, s.2.vals ++ [v], st1, o2⟩)
        else fin s.2.cnt s.2.vals st1 o2))
    (fun _ st1 o1 => fin s.2.cnt s.2.vals st1 o1)

variable {cn : Nat → Pat ι β → σ → Nat → Option (CRes σ (Val β))}
  {cn' : Pat ι β → σ → Nat → Option (CRes σ (Val β))}
  {ms : Nat → Nat → Option (Res Span)} {ms' : Nat → Option (Res Span)}

theorem repBody_le {cn cn' : Pat ι β → σ → Nat → Option (CRes σ (Val β))}
    (h : ∀ p st o, Le (cn p st o) (cn' p st o)) {p : Pat ι β} {more room : Nat → Bool}
    {fin : Nat → List (Val β) → σ → Nat → Option (CRes σ (Val β))}
    (r r' : LS β σ → Option (CRes σ (Val β))) (hr : ∀ s, Le (r s) (r' s)) (s : LS β σ) :
    Le (repBody cn p more room fin r s) (repBody cn' p more room fin r' s) :=
  ite_le (caseC_le (h _ _ _) (fun _ _ _ => ite_le (hr _) (Le.refl _)) (fun _ _ _ => Le.refl _))
    (Le.refl _)

theorem sepBody_le {cn cn' : Pat ι β → σ → Nat → Option (CRes σ (Val β))}
    {ms ms' : Nat → Option (Res Span)}
    (h : ∀ p st o, Le (cn p st o) (cn' p st o)) (hm : ∀ o, Le (ms o) (ms' o)) {p : Pat ι β}
    {skip : Bool} {more room : Nat → Bool}
    {fin : Nat → List (Val β) → σ → Nat → Option (CRes σ (Val β))}
    (r r' : LS β σ → Option (CRes σ (Val β))) (hr : ∀ s, Le (r s) (r' s)) (s : LS β σ) :
    Le (sepBody cn ms p skip more room fin r s) (sepBody cn' ms' p skip more room fin r' s) :=
  ite_le (caseC_le (h _ _ _) (fun _ _ _ => caseM_le (hm _)
    (fun _ _ => ite_le (hr _) (Le.refl _)) (fun _ _ => Le.refl _)) (fun _ _ _ => Le.refl _))
    (Le.refl _)

theorem sepCBody_le {cn cn' : Pat ι β → σ → Nat → Option (CRes σ (Val β))}
    {ms ms' : Nat → Option (Res Span)}
    (h : ∀ p st o, Le (cn p st o) (cn' p st o)) (hm : ∀ o, Le (ms o) (ms' o)) {p : Pat ι β}
    {skip : Bool} {fin : Nat → List (Val β) → σ → Nat → Option (CRes σ (Val β))}
    (r r' : Bool × LS β σ → Option (CRes σ (Val β))) (hr : ∀ s, Le (r s) (r' s))
    (s : Bool × LS β σ) :
    Le (sepCBody cn ms p skip fin r s) (sepCBody cn' ms' p skip fin r' s) :=
  caseC_le (h _ _ _) (fun _ _ _ => caseM_le (hm _)
    (fun _ _ => ite_le (Le.refl _) (hr _))
    (fun _ _ => ite_le (Le.refl _) (ite_le (hr _) (Le.refl _)))) (fun _ _ _ => Le.refl _)

theorem approx_repBody (h : ∀ p st o, Approx (fun n => cn n p st o) (cn' p st o)) {p : Pat ι β}
    {more room : Nat → Bool} {fin : Nat → List (Val β) → σ → Nat → Option (CRes σ (Val β))}
    (r : Nat → LS β σ → Option (CRes σ (Val β))) (r' : LS β σ → Option (CRes σ (Val β)))
    (hr : ∀ s, Approx (fun n => r n s) (r' s)) (s : LS β σ) :
    Approx (fun n => repBody (cn n) p more room fin (r n) s) (repBody cn' p more room fin r' s) :=
  approx_ite (approx_caseC (h _ _ _) (fun _ _ _ => approx_ite (hr _) (approx_const _))
    (fun _ _ _ => approx_const _)) (approx_const _)

theorem approx_sepBody (h : ∀ p st o, Approx (fun n => cn n p st o) (cn' p st o))
    (hm : ∀ o, Approx (fun n => ms n o) (ms' o)) {p : Pat ι β}
    {skip : Bool} {more room : Nat → Bool}
    {fin : Nat → List (Val β) → σ → Nat → Option (CRes σ (Val β))}
    (r : Nat → LS β σ → Option (CRes σ (Val β))) (r' : LS β σ → Option (CRes σ (Val β)))
    (hr : ∀ s, Approx (fun n => r n s) (r' s)) (s : LS β σ) :
    Approx (fun n => sepBody (cn n) (ms n) p skip more room fin (r n) s)
      (sepBody cn' ms' p skip more room fin r' s) :=
  approx_ite (approx_caseC (h _ _ _) (fun _ _ _ => approx_caseM (hm _)
    (fun _ _ => approx_ite (hr _) (approx_const _)) (fun _ _ => approx_const _))
    (fun _ _ _ => approx_const _)) (approx_const _)

theorem approx_sepCBody (h : ∀ p st o, Approx (fun n => cn n p st o) (cn' p st o))
    (hm : ∀ o, Approx (fun n => ms n o) (ms' o)) {p : Pat ι β}
    {skip : Bool} {fin : Nat → List (Val β) → σ → Nat → Option (CRes σ (Val β))}
    (r : Nat → Bool × LS β σ → Option (CRes σ (Val β)))
    (r' : Bool × LS β σ → Option (CRes σ (Val β)))
    (hr : ∀ s, Approx (fun n => r n s) (r' s)) (s : Bool × LS β σ) :
    Approx (fun n => sepCBody (cn n) (ms n) p skip fin (r n) s)
      (sepCBody cn' ms' p skip fin r' s) :=
  approx_caseC (h _ _ _) (fun _ _ _ => approx_caseM (hm _)
    (fun _ _ => approx_ite (approx_const _) (hr _))
    (fun _ _ => approx_ite (approx_const _) (approx_ite (hr _) (approx_const _))))
    (fun _ _ _ => approx_const _)

/-- Fuel-free loops. -/
noncomputable def conRepL (cn : Pat ι β → σ → Nat → Option (CRes σ (Val β))) (p : Pat ι β)
    (more room : Nat → Bool) (fin : Nat → List (Val β) → σ → Nat → Option (CRes σ (Val β)))
    (cnt : Nat) (vals : List (Val β)) (st : σ) (o : Nat) : Option (CRes σ (Val β)) :=
  lim fun k => conRep cn p more room fin k cnt vals st o

noncomputable def conSepL (cn : Pat ι β → σ → Nat → Option (CRes σ (Val β)))
    (ms : Nat → Option (Res Span)) (p : Pat ι β) (skip : Bool) (more room : Nat → Bool)
    (fin : Nat → List (Val β) → σ → Nat → Option (CRes σ (Val β)))
    (cnt : Nat) (vals : List (Val β)) (st : σ) (o : Nat) : Option (CRes σ (Val β)) :=
  lim fun k => conSep cn ms p skip more room fin k cnt vals st o

noncomputable def conSepCL (cn : Pat ι β → σ → Nat → Option (CRes σ (Val β)))
    (ms : Nat → Option (Res Span)) (p : Pat ι β) (skip : Bool)
    (fin : Nat → List (Val β) → σ → Nat → Option (CRes σ (Val β))) (ended : Bool)
    (cnt : Nat) (vals : List (Val β)) (st : σ) (o : Nat) : Option (CRes σ (Val β)) :=
  lim fun k => conSepCollect cn ms p skip fin k ended cnt vals st o

theorem approx_conRep (h : ∀ p st o, Approx (fun n => cn n p st o) (cn' p st o)) (p : Pat ι β)
    (more room : Nat → Bool) (fin : Nat → List (Val β) → σ → Nat → Option (CRes σ (Val β)))
    (cnt : Nat) (vals : List (Val β)) (st : σ) (o : Nat) :
    Approx (fun n => conRep (cn n) p more room fin n cnt vals st o)
      (conRepL cn' p more room fin cnt vals st o) :=
  approx_loop (S := LS β σ)
    (g := fun n k s => conRep (cn n) p more room fin k s.cnt s.vals s.st s.o)
    (g' := fun k s => conRep cn' p more room fin k s.cnt s.vals s.st s.o)
    (body := fun n => repBody (cn n) p more room fin) (body' := repBody cn' p more room fin)
    (fun _ _ => rfl) (fun _ _ _ => rfl) (fun _ => rfl) (fun _ _ => rfl)
    (fun n m hnm => repBody_le fun p st o => (h p st o).1 n m hnm)
    (repBody_le fun _ _ _ => Le.refl _)
    (approx_repBody h) ⟨cnt, vals, st, o⟩

theorem approx_conSep (h : ∀ p st o, Approx (fun n => cn n p st o) (cn' p st o))
    (hm : ∀ o, Approx (fun n => ms n o) (ms' o)) (p : Pat ι β) (skip : Bool)
    (more room : Nat → Bool) (fin : Nat → List (Val β) → σ → Nat → Option (CRes σ (Val β)))
    (cnt : Nat) (vals : List (Val β)) (st : σ) (o : Nat) :
    Approx (fun n => conSep (cn n) (ms n) p skip more room fin n cnt vals st o)
      (conSepL cn' ms' p skip more room fin cnt vals st o) :=
  approx_loop (S := LS β σ)
    (g := fun n k s => conSep (cn n) (ms n) p skip more room fin k s.cnt s.vals s.st s.o)
    (g' := fun k s => conSep cn' ms' p skip more room fin k s.cnt s.vals s.st s.o)
    (body := fun n => sepBody (cn n) (ms n) p skip more room fin)
    (body' := sepBody cn' ms' p skip more room fin)
    (fun _ _ => rfl) (fun _ _ _ => rfl) (fun _ => rfl) (fun _ _ => rfl)
    (fun n m hnm => sepBody_le (fun p st o => (h p st o).1 n m hnm) (fun o => (hm o).1 n m hnm))
    (sepBody_le (fun _ _ _ => Le.refl _) (fun _ => Le.refl _))
    (approx_sepBody h hm) ⟨cnt, vals, st, o⟩

theorem approx_conSepCollect (h : ∀ p st o, Approx (fun n => cn n p st o) (cn' p st o))
    (hm : ∀ o, Approx (fun n => ms n o) (ms' o)) (p : Pat ι β) (skip : Bool)
    (fin : Nat → List (Val β) → σ → Nat → Option (CRes σ (Val β))) (ended : Bool)
    (cnt : Nat) (vals : List (Val β)) (st : σ) (o : Nat) :
    Approx (fun n => conSepCollect (cn n) (ms n) p skip fin n ended cnt vals st o)
      (conSepCL cn' ms' p skip fin ended cnt vals st o) :=
  approx_loop (S := Bool × LS β σ)
    (g := fun n k s => conSepCollect (cn n) (ms n) p skip fin k s.1 s.2.cnt s.2.vals s.2.st s.2.o)
    (g' := fun k s => conSepCollect cn' ms' p skip fin k s.1 s.2.cnt s.2.vals s.2.st s.2.o)
    (body := fun n => sepCBody (cn n) (ms n) p skip fin)
    (body' := sepCBody cn' ms' p skip fin)
    (fun _ _ => rfl) (fun _ _ _ => rfl) (fun _ => rfl) (fun _ _ => rfl)
    (fun n m hnm => sepCBody_le (fun p st o => (h p st o).1 n m hnm) (fun o => (hm o).1 n m hnm))
    (sepCBody_le (fun _ _ _ => Le.refl _) (fun _ => Le.refl _))
    (approx_sepCBody h hm) (ended, ⟨cnt, vals, st, o⟩)

theorem conRepL_eq (cn : Pat ι β → σ → Nat → Option (CRes σ (Val β))) (p : Pat ι β)
    (more room : Nat → Bool) (fin : Nat → List (Val β) → σ → Nat → Option (CRes σ (Val β)))
    (cnt : Nat) (vals : List (Val β)) (st : σ) (o : Nat) :
    conRepL cn p more room fin cnt vals st o =
      if more cnt then
        caseC (cn p st o)
          (fun v st1 o1 => if room cnt then conRepL cn p more room fin (cnt + 1) (vals ++ [v]) st1 o1
            else some .panic)
          (fun _ st1 o1 => fin cnt vals st1 o1)
      else fin cnt vals st o :=
  loop_eq (S := LS β σ)
    (g' := fun k s => conRep cn p more room fin k s.cnt s.vals s.st s.o)
    (body' := repBody cn p more room fin) (fun _ => rfl) (fun _ _ => rfl)
    (repBody_le fun _ _ _ => Le.refl _)
    (approx_repBody (cn := fun _ => cn) (cn' := cn) fun _ _ _ => approx_const _) ⟨cnt, vals, st, o⟩

theorem conSepL_eq (cn : Pat ι β → σ → Nat → Option (CRes σ (Val β)))
    (ms : Nat → Option (Res Span)) (p : Pat ι β) (skip : Bool) (more room : Nat → Bool)
    (fin : Nat → List (Val β) → σ → Nat → Option (CRes σ (Val β)))
    (cnt : Nat) (vals : List (Val β)) (st : σ) (o : Nat) :
    conSepL cn ms p skip more room fin cnt vals st o =
      if more cnt then
        caseC (cn p st o)
          (fun v st1 o1 => caseM (ms o1)
            (fun _ o2 => if room cnt then
                conSepL cn ms p skip more room fin (cnt + 1) (vals ++ [v]) st1 o2
              else some .panic)
            (fun _ o2 => if skip then
                if room cnt then fin (cnt + 1) (vals ++ [v]) st1 o2 else some .panic
              else fin cnt vals st1 o2))
          (fun _ st1 o1 => fin cnt vals st1 o1)
      else fin cnt vals st o :=
  loop_eq (S := LS β σ)
    (g' := fun k s => conSep cn ms p skip more room fin k s.cnt s.vals s.st s.o)
    (body' := sepBody cn ms p skip more room fin) (fun _ => rfl) (fun _ _ => rfl)
    (sepBody_le (fun _ _ _ => Le.refl _) (fun _ => Le.refl _))
    (approx_sepBody (cn := fun _ => cn) (cn' := cn) (ms := fun _ => ms) (ms' := ms)
      (fun _ _ _ => approx_const _) (fun _ => approx_const _)) ⟨cnt, vals, st, o⟩

theorem conSepCL_eq (cn : Pat ι β → σ → Nat → Option (CRes σ (Val β)))
    (ms : Nat → Option (Res Span)) (p : Pat ι β) (skip : Bool)
    (fin : Nat → List (Val β) → σ → Nat → Option (CRes σ (Val β))) (ended : Bool)
    (cnt : Nat) (vals : List (Val β)) (st : σ) (o : Nat) :
    conSepCL cn ms p skip fin ended cnt vals st o =
      caseC (cn p st o)
        (fun v st1 o1 => caseM (ms o1)
          (fun _ o2 => if ended then fin cnt vals st1 o2
            else conSepCL cn ms p skip fin false (cnt + 1) (vals ++ [v]) st1 o2)
          (fun _ o2 => if ended then fin cnt vals st1 o2
            else if skip then conSepCL cn ms p skip fin true (cnt + 1) (vals ++ [v]) st1 o2
            else fin cnt vals st1 o2))
        (fun _ st1 o1 => fin cnt vals st1 o1) :=
  loop_eq (S := Bool × LS β σ)
    (g' := fun k s => conSepCollect cn ms p skip fin k s.1 s.2.cnt s.2.vals s.2.st s.2.o)
    (body' := sepCBody cn ms p skip fin) (fun _ => rfl) (fun _ _ => rfl)
    (sepCBody_le (fun _ _ _ => Le.refl _) (fun _ => Le.refl _))
    (approx_sepCBody (cn := fun _ => cn) (cn' := cn) (ms := fun _ => ms) (ms' := ms)
      (fun _ _ _ => approx_const _) (fun _ => approx_const _))
    (ended, ⟨cnt, vals, st, o⟩)

end Rep

/-! ## One level -/

theorem approx_invokeK {H : Handler ι β σ} {d : List ι} {st : σ} {r : Nat → Option (Res Span)}
    {r' : Option (Res Span)} (h : Approx r r') :
    Approx (fun n => invokeK H d st (r n)) (invokeK H d st r') :=
  approx_caseM h (fun _ _ => approx_const _) (fun _ _ => approx_const _)

/-- Fuel-free one-level evaluator. -/
noncomputable def conStepL (G : Rules ι β) (H : Handler ι β σ)
    (mt : Pat ι β → Nat → Option (Res Span)) (leaf : Option (Res Span))
    (cn : Pat ι β → σ → Nat → Option (CRes σ (Val β)))
    (d : List ι) (p : Pat ι β) (st : σ) (o : Nat) : Option (CRes σ (Val β)) :=
  lim fun n => conStep G H n mt leaf cn d p st o

set_option maxHeartbeats 1000000 in
theorem approx_conStep {G : Rules ι β} {H : Handler ι β σ}
    {mt : Nat → Pat ι β → Nat → Option (Res Span)} {mt' : Pat ι β → Nat → Option (Res Span)}
    {leaf : Nat → Option (Res Span)} {leaf' : Option (Res Span)}
    {cn : Nat → Pat ι β → σ → Nat → Option (CRes σ (Val β))}
    {cn' : Pat ι β → σ → Nat → Option (CRes σ (Val β))}
    (hm : ∀ p o, Approx (fun n => mt n p o) (mt' p o)) (hl : Approx leaf leaf')
    (hc : ∀ p st o, Approx (fun n => cn n p st o) (cn' p st o)) (d : List ι) (p : Pat ι β)
    (st : σ) (o : Nat) :
    Approx (fun n => conStep G H n (mt n) (leaf n) (cn n) d p st o)
      (conStepL G H mt' leaf' cn' d p st o) := by
  have c {γ : Type} (x : Option γ) : Approx (fun _ => x) x := approx_const x
  have done {f : Nat → Option (CRes σ (Val β))} {g h : Option (CRes σ (Val β))} (h1 : Approx f g)
      (h2 : h = g) : Approx f h := h2 ▸ h1
  cases p
  case empty | fail | start | anchorEnd | consume | consumeAll | lit | native | once | many1 | optU
      | many0 | between | times | thenU | assert | build =>
    exact done (approx_invokeK hl) (lim_const _)
  case pat q => exact done (approx_invokeK (hm _ _)) (lim_const _)
  case thn a b =>
    refine done ?_ (lim_const _)
    simp only [conStep]
    exact approx_caseC (hc _ _ _) (fun _ _ _ => approx_caseC (hc _ _ _) (fun _ _ _ => c _)
      (fun _ _ _ => c _)) (fun _ _ _ => c _)
  case ifThen a t b =>
    refine done ?_ (lim_const _)
    simp only [conStep]
    exact approx_caseC (hc _ _ _) (fun _ _ _ => approx_caseM (hm _ _)
      (fun _ _ => approx_caseC (hc _ _ _) (fun _ _ _ => c _) (fun _ _ _ => c _))
      (fun _ _ => c _)) (fun _ _ _ => c _)
  case pre a b =>
    refine done ?_ (lim_const _)
    simp only [conStep]
    exact approx_caseM (hm _ _) (fun _ _ => approx_caseC (hc _ _ _) (fun _ _ _ => c _)
      (fun _ _ _ => c _)) (fun _ _ => c _)
  case suf a b =>
    refine done ?_ (lim_const _)
    simp only [conStep]
    exact approx_caseC (hc _ _ _) (fun _ _ _ => approx_caseM (hm _ _) (fun _ _ => c _)
      (fun _ _ => c _)) (fun _ _ _ => c _)
  case enclose a b e =>
    refine done ?_ (lim_const _)
    simp only [conStep]
    exact approx_caseM (hm _ _) (fun _ _ => approx_caseC (hc _ _ _)
      (fun _ _ _ => approx_caseM (hm _ _) (fun _ _ => c _) (fun _ _ => c _))
      (fun _ _ _ => c _)) (fun _ _ => c _)
  case sepOnce a b e =>
    refine done ?_ (lim_const _)
    simp only [conStep]
    exact approx_caseC (hc _ _ _) (fun _ _ _ => approx_caseM (hm _ _)
      (fun _ _ => approx_caseC (hc _ _ _) (fun _ _ _ => c _) (fun _ _ _ => c _))
      (fun _ _ => c _)) (fun _ _ _ => c _)
  case or a b =>
    refine done ?_ (lim_const _)
    simp only [conStep]
    exact approx_caseC (hc _ _ _) (fun _ _ _ => c _) (fun _ _ _ => approx_caseC (hc _ _ _)
      (fun _ _ _ => c _) (fun _ _ _ => c _))
  case longest a b =>
    refine done ?_ (lim_const _)
    simp only [conStep]
    exact approx_caseC (hc _ _ _) (fun _ _ _ => approx_caseC (hc _ _ _)
      (fun _ _ _ => c _) (fun _ _ _ => c _)) (fun _ _ _ => approx_caseC (hc _ _ _)
      (fun _ _ _ => c _) (fun _ _ _ => c _))
  case opt q =>
    refine done ?_ (lim_const _)
    simp only [conStep]
    exact approx_caseC (hc _ _ _) (fun _ _ _ => c _) (fun _ _ _ => c _)
  case choice e items =>
    refine done ?_ (lim_const _)
    simp only [conStep]
    exact approx_conChoice hc _ _ _ _ _
  case ltm e items =>
    refine done ?_ (lim_const _)
    simp only [conStep]
    exact approx_conLtm hc _ _ _ _ _ _ _
  case rep q r => exact done (approx_conRep hc _ _ _ _ _ _ _ _) rfl
  case rep2 q m k => exact done (approx_conRep hc _ _ _ _ _ _ _ _) rfl
  case collect q k => exact done (approx_conRep hc _ _ _ _ _ _ _ _) rfl
  case sep q s k m => exact done (approx_conSep hc (hm s) _ _ _ _ _ _ _ _ _) rfl
  case sep2 q s k m l => exact done (approx_conSep hc (hm s) _ _ _ _ _ _ _ _ _) rfl
  case sepCollect q s k m => exact done (approx_conSepCollect hc (hm s) _ _ _ _ _ _ _ _) rfl
  case branch t a b =>
    refine done ?_ (lim_const _)
    simp only [conStep]
    exact approx_caseT (fun _ => approx_caseC (hc _ _ _) (fun _ _ _ => c _) (fun _ _ _ => c _))
      (fun _ => c _)
  case map q f =>
    refine done ?_ (lim_const _)
    simp only [conStep]
    exact approx_caseC (hc _ _ _) (fun _ _ _ => c _) (fun _ _ _ => c _)
  case dthen q f =>
    refine done ?_ (lim_const _)
    simp only [conStep]
    exact approx_caseC (hc _ _ _) (fun _ _ _ => approx_caseM (c _) (fun _ _ =>
      approx_caseC (hc _ _ _) (fun _ _ _ => c _) (fun _ _ _ => c _)) (fun _ _ => c _))
      (fun _ _ _ => c _)
  case cell i =>
    refine done ?_ (lim_const _)
    simp only [conStep]
    cases G i with
    | none => exact c _
    | some q => exact hc _ _ _

/-- A two-step chain `a, …, a, b, b, …` approximates `b`. -/
theorem approx_two {γ : Type} {a b : Option γ} (n : Nat) (h : Le a b) :
    Approx (fun k => if k ≤ n then a else b) b := by
  apply approx_intro
  · intro i j hij
    show Le (if i ≤ n then a else b) (if j ≤ n then a else b)
    by_cases hi : i ≤ n
    · by_cases hj : j ≤ n
      · simp only [hi, hj, if_true]; exact Le.refl _
      · simp only [hi, hj, if_true, if_false]; exact h
    · have hj : ¬ j ≤ n := by omega
      simp only [hi, hj, if_false]; exact Le.refl _
  · intro k
    by_cases hk : k ≤ n
    · simp only [hk, if_true]; exact h
    · simp only [hk, if_false]; exact Le.refl _
  · intro x hx
    refine ⟨n + 1, ?_⟩
    have : ¬ n + 1 ≤ n := by omega
    simp only [this, if_false]; exact hx

theorem con_le_succ (G : Rules ι β) (H : Handler ι β σ) (n : Nat) (pol : Option (Pat ι β))
    (d : List ι) (p : Pat ι β) (st : σ) (o : Nat) :
    Le (con G H n pol d p st o) (con G H (n + 1) pol d p st o) := by
  induction n generalizing p st o with
  | zero => exact Le.none _
  | succ n ih =>
    have h := (approx_conStep (G := G) (H := H)
      (mt := fun k p o => if k ≤ n then tryMat G n pol d p o else tryMat G (n + 1) pol d p o)
      (hm := fun p o => approx_two n (tryMat_mono G pol d p o n (n + 1) (by omega)))
      (leaf := fun k => if k ≤ n then tryMat G (n + 1) pol d p o else tryMat G (n + 2) pol d p o)
      (hl := approx_two n (tryMat_mono G pol d p o (n + 1) (n + 2) (by omega)))
      (cn := fun k p st o => if k ≤ n then con G H n pol d p st o else con G H (n + 1) pol d p st o)
      (hc := fun p st o => approx_two n (ih p st o)) d p st o).1 n (n + 1) (by omega)
    have hf : ¬ n + 1 ≤ n := by omega
    simp only [hf, if_false, Nat.le_refl, if_true] at h
    exact h

theorem con_mono (G : Rules ι β) (H : Handler ι β σ) (pol : Option (Pat ι β)) (d : List ι)
    (p : Pat ι β) (st : σ) (o : Nat) : Mono fun n => con G H n pol d p st o := by
  intro n m h
  induction h with
  | refl => exact Le.refl _
  | step _ ih => exact Le.trans ih (con_le_succ _ _ _ _ _ _ _ _)

/-- `p.construct(ctx, handler)` without fuel; `none` = never returns. -/
noncomputable def conL (G : Rules ι β) (H : Handler ι β σ) (pol : Option (Pat ι β)) (d : List ι)
    (p : Pat ι β) (st : σ) (o : Nat) : Option (CRes σ (Val β)) := lim fun n => con G H n pol d p st o

theorem approx_con (G : Rules ι β) (H : Handler ι β σ) (pol : Option (Pat ι β)) (d : List ι)
    (p : Pat ι β) (st : σ) (o : Nat) :
    Approx (fun n => con G H n pol d p st o) (conL G H pol d p st o) :=
  ⟨con_mono _ _ _ _ _ _ _, rfl⟩

theorem constructs_iff {G : Rules ι β} {H : Handler ι β σ} {pol : Option (Pat ι β)} {d : List ι}
    {p : Pat ι β} {st : σ} {o : Nat} {r : CRes σ (Val β)} :
    Constructs G H pol d p st o r ↔ conL G H pol d p st o = some r := by
  rw [← (approx_con G H pol d p st o).2, lim_eq_some (con_mono _ _ _ _ _ _ _)]; rfl

theorem Constructs.unique {G : Rules ι β} {H : Handler ι β σ} {pol : Option (Pat ι β)} {d : List ι}
    {p : Pat ι β} {st : σ} {o : Nat} {r r' : CRes σ (Val β)} (h : Constructs G H pol d p st o r)
    (h' : Constructs G H pol d p st o r') : r = r' := by
  rw [constructs_iff] at h h'; rw [h] at h'; exact Option.some.inj h'

theorem conL_eq (G : Rules ι β) (H : Handler ι β σ) (pol : Option (Pat ι β)) (d : List ι)
    (p : Pat ι β) (st : σ) (o : Nat) :
    conL G H pol d p st o =
      conStepL G H (matL G pol d) (matL G pol d p o) (conL G H pol d) d p st o := by
  have hl : Approx (fun n => tryMat G (n + 1) pol d p o) (matL G pol d p o) :=
    ⟨fun n m h => tryMat_mono G pol d p o _ _ (by omega), by
      rw [← (approx_tryMat G pol d p o).2]; exact lim_succ (tryMat_mono G pol d p o)⟩
  have h := approx_conStep (G := G) (H := H) (hm := fun p o => approx_tryMat G pol d p o)
    (hl := hl) (hc := fun p st o => approx_con G H pol d p st o) d p st o
  rw [← h.2]
  rw [show conL G H pol d p st o = lim fun n => con G H n pol d p st o from rfl,
    ← lim_succ (con_mono G H pol d p st o)]
  rfl

/-! ## Constructor by constructor -/

/-- Patterns whose `construct` is "match, then call the handler". -/
def Leaf : Pat ι β → Prop
  | .empty | .fail | .start | .anchorEnd | .consume _ | .consumeAll | .lit _ | .native _
  | .once _ _ | .many1 _ _ | .optU _ _ | .many0 _ _ | .between _ _ _ _ | .times _ _ _
  | .thenU _ _ _ | .assert _ _ | .build _ _ => True
  | _ => False

section Eqs
variable (G : Rules ι β) (H : Handler ι β σ) (pol : Option (Pat ι β)) (d : List ι) (st : σ) (o : Nat)

theorem conL_leaf {p : Pat ι β} (hp : Leaf p) :
    conL G H pol d p st o = invokeK H d st (matL G pol d p o) := by
  rw [conL_eq]
  cases p <;> first | exact lim_const _ | exact hp.elim

theorem conL_pat (q : Pat ι β) :
    conL G H pol d (.pat q) st o = invokeK H d st (matL G pol d q o) := by
  rw [conL_eq]; exact lim_const _

theorem conL_thn (a b : Pat ι β) :
    conL G H pol d (.thn a b) st o = caseC (conL G H pol d a st o)
      (fun v1 st1 o1 => caseC (conL G H pol d b st1 o1)
        (fun v2 st2 o2 => some (.ok (.pair v1 v2) st2 o2))
        (fun e st2 _ => some (.err e st2 o)))
      (fun e st1 _ => some (.err e st1 o)) := by
  rw [conL_eq]; exact lim_const _

theorem conL_ifThen (a t b : Pat ι β) :
    conL G H pol d (.ifThen a t b) st o = caseC (conL G H pol d a st o)
      (fun v1 st1 o1 => caseM (matL G pol d t o1)
        (fun _ o2 => caseC (conL G H pol d b st1 o2)
          (fun v2 st2 o3 => some (.ok (.pair v1 (.some v2)) st2 o3))
          (fun e st2 _ => some (.err e st2 o)))
        (fun _ _ => some (.ok (.pair v1 .none) st1 o1)))
      (fun e st1 _ => some (.err e st1 o)) := by
  rw [conL_eq]; exact lim_const _

theorem conL_pre (a b : Pat ι β) :
    conL G H pol d (.pre a b) st o = caseM (matL G pol d a o)
      (fun _ o1 => caseC (conL G H pol d b st o1)
        (fun v st1 o2 => some (.ok v st1 o2))
        (fun e st1 _ => some (.err e st1 o)))
      (fun e _ => some (.err e st o)) := by
  rw [conL_eq]; exact lim_const _

theorem conL_suf (a b : Pat ι β) :
    conL G H pol d (.suf a b) st o = caseC (conL G H pol d a st o)
      (fun v st1 o1 => caseM (matL G pol d b o1)
        (fun _ o2 => some (.ok v st1 o2))
        (fun e _ => some (.err e st1 o)))
      (fun e st1 _ => some (.err e st1 o)) := by
  rw [conL_eq]; exact lim_const _

theorem conL_enclose (a b c : Pat ι β) :
    conL G H pol d (.enclose a b c) st o = caseM (matL G pol d a o)
      (fun _ o1 => caseC (conL G H pol d b st o1)
        (fun v st1 o2 => caseM (matL G pol d c o2)
          (fun _ o3 => some (.ok v st1 o3))
          (fun e _ => some (.err e st1 o)))
        (fun e st1 _ => some (.err e st1 o)))
      (fun e _ => some (.err e st o)) := by
  rw [conL_eq]; exact lim_const _

theorem conL_sepOnce (a b c : Pat ι β) :
    conL G H pol d (.sepOnce a b c) st o = caseC (conL G H pol d a st o)
      (fun v1 st1 o1 => caseM (matL G pol d b o1)
        (fun _ o2 => caseC (conL G H pol d c st1 o2)
          (fun v2 st2 o3 => some (.ok (.pair v1 v2) st2 o3))
          (fun e st2 _ => some (.err e st2 o)))
        (fun e _ => some (.err e st1 o)))
      (fun e st1 _ => some (.err e st1 o)) := by
  rw [conL_eq]; exact lim_const _

theorem conL_or (a b : Pat ι β) :
    conL G H pol d (.or a b) st o = caseC (conL G H pol d a st o)
      (fun v st1 o1 => some (.ok v st1 o1))
      (fun _ st1 _ => caseC (conL G H pol d b st1 o) (fun v st2 o2 => some (.ok v st2 o2))
        (fun e st2 _ => some (.err e st2 o))) := by
  rw [conL_eq]; exact lim_const _

theorem conL_longest (a b : Pat ι β) :
    conL G H pol d (.longest a b) st o = caseC (conL G H pol d a st o)
      (fun l st1 offL => caseC (conL G H pol d b st1 o)
        (fun r st2 offR => if offL ≥ offR then some (.ok l st2 offL) else some (.ok r st2 offR))
        (fun _ st2 _ => some (.ok l st2 offL)))
      (fun _ st1 _ => caseC (conL G H pol d b st1 o)
        (fun r st2 offR => some (.ok r st2 offR))
        (fun e st2 _ => some (.err e st2 o))) := by
  rw [conL_eq]; exact lim_const _

theorem conL_opt (q : Pat ι β) :
    conL G H pol d (.opt q) st o = caseC (conL G H pol d q st o)
      (fun v st1 o1 => some (.ok (.some v) st1 o1)) (fun _ st1 _ => some (.ok .none st1 o)) := by
  rw [conL_eq]; exact lim_const _

theorem conL_choice (e : Error) (items : List (Pat ι β × Option (Val β))) :
    conL G H pol d (.choice e items) st o = conChoice (conL G H pol d) e o items st o := by
  rw [conL_eq]; exact lim_const _

theorem conL_ltm (e : Error) (items : List (Pat ι β × Option (Val β))) :
    conL G H pol d (.ltm e items) st o = conLtm (conL G H pol d) e o items none o st o := by
  rw [conL_eq]; exact lim_const _

theorem conL_rep (q : Pat ι β) (r : CRange) :
    conL G H pol d (.rep q r) st o = conRepL (conL G H pol d) q r.more (fun _ => true)
      (conFinish r.contains .repeat_ o Val.list) 0 [] st o := by
  rw [conL_eq]; rfl

theorem conL_rep2 (q : Pat ι β) (m n : Nat) :
    conL G H pol d (.rep2 q m n) st o = conRepL (conL G H pol d) q (fun c => decide (c ≤ n))
      (fun c => decide (c < n)) (conFinish (fun c => decide (m ≤ c) && decide (c ≤ n)) .repeat2 o
        (padded n)) 0 [] st o := by
  rw [conL_eq]; rfl

theorem conL_collect (q : Pat ι β) (min : Nat) :
    conL G H pol d (.collect q min) st o = conRepL (conL G H pol d) q (fun _ => true)
      (fun _ => true) (conFinish (fun c => decide (c ≥ min)) .collect o Val.list) 0 [] st o := by
  rw [conL_eq]; rfl

theorem conL_sep (q s : Pat ι β) (skip : Bool) (min : Nat) :
    conL G H pol d (.sep q s skip min) st o = conSepL (conL G H pol d) (matL G pol d s) q skip
      (fun _ => true) (fun _ => true)
      (conFinish (fun c => decide (c ≥ min)) .separate o Val.list) 0 [] st o := by
  rw [conL_eq]; rfl

theorem conL_sep2 (q s : Pat ι β) (skip : Bool) (m n : Nat) :
    conL G H pol d (.sep2 q s skip m n) st o = conSepL (conL G H pol d) (matL G pol d s) q skip
      (fun c => decide (c ≤ n)) (fun c => decide (c < n))
      (conFinish (fun c => decide (c ≥ m)) .separate2 o (padded n)) 0 [] st o := by
  rw [conL_eq]; rfl

theorem conL_sepCollect (q s : Pat ι β) (skip : Bool) (min : Nat) :
    conL G H pol d (.sepCollect q s skip min) st o =
      conSepCL (conL G H pol d) (matL G pol d s) q skip
        (conFinish (fun c => decide (c ≥ min)) .sepCollect o Val.list) false 0 [] st o := by
  rw [conL_eq]; rfl

theorem conL_branch (t : List ι → Nat → Out Bool) (a b : Pat ι β) :
    conL G H pol d (.branch t a b) st o = caseT (t d o)
      (fun t => caseC (conL G H pol d (if t then a else b) st o)
        (fun v st1 o1 => some (.ok v st1 o1)) (fun e st1 _ => some (.err e st1 o)))
      (fun e => some (.err e st o)) := by
  rw [conL_eq]; exact lim_const _

theorem conL_map (q : Pat ι β) (f : Val β → Out (Val β)) :
    conL G H pol d (.map q f) st o = caseC (conL G H pol d q st o)
      (fun v st1 o1 => caseT (f v) (fun w => some (.ok w st1 o1)) (fun e => some (.err e st1 o1)))
      (fun e st1 o1 => some (.err e st1 o1)) := by
  rw [conL_eq]; exact lim_const _

theorem conL_dthen (q : Pat ι β) (f : List ι → Nat → Val β → Res (Pat ι β)) :
    conL G H pol d (.dthen q f) st o = caseC (conL G H pol d q st o)
      (fun v1 st1 o1 => caseM (some (f d o1 v1))
        (fun p' o2 => caseC (conL G H pol d p' st1 o2)
          (fun v2 st2 o3 => some (.ok (.pair v1 v2) st2 o3))
          (fun e st2 _ => some (.err e st2 o)))
        (fun e o2 => some (.err e st1 o2)))
      (fun e st1 _ => some (.err e st1 o)) := by
  rw [conL_eq]; exact lim_const _

theorem conL_cell (i : Nat) :
    conL G H pol d (.cell i) st o = match G i with
      | none => some (.err .option st o)
      | some q => conL G H pol d q st o := by
  rw [conL_eq]; exact lim_const _

end Eqs

theorem caseC_some {α γ : Type} {x : Option (CRes σ α)} {f : α → σ → Nat → Option (CRes σ γ)}
    {g : Error → σ → Nat → Option (CRes σ γ)} {r : CRes σ γ} : caseC x f g = some r ↔
      (x = some .panic ∧ r = .panic) ∨ (∃ a st o, x = some (.ok a st o) ∧ f a st o = some r) ∨
      (∃ e st o, x = some (.err e st o) ∧ g e st o = some r) := by
  cases x with
  | none => simp [caseC]
  | some v =>
    cases v with
    | ok a st o =>
      constructor
      · intro h; exact .inr (.inl ⟨a, st, o, rfl, h⟩)
      · rintro (⟨h, _⟩ | ⟨_, _, _, h, h'⟩ | ⟨_, _, _, h, _⟩) <;> cases h; exact h'
    | err a st o =>
      constructor
      · intro h; exact .inr (.inr ⟨a, st, o, rfl, h⟩)
      · rintro (⟨h, _⟩ | ⟨_, _, _, h, _⟩ | ⟨_, _, _, h, h'⟩) <;> cases h; exact h'
    | panic => simp [caseC, eq_comm]

theorem caseM_some {α γ : Type} {x : Option (Res α)} {f : α → Nat → Option (CRes σ γ)}
    {g : Error → Nat → Option (CRes σ γ)} {r : CRes σ γ} : caseM x f g = some r ↔
      (x = some .panic ∧ r = .panic) ∨ (∃ a o, x = some (.ok a o) ∧ f a o = some r) ∨
      (∃ e o, x = some (.err e o) ∧ g e o = some r) := by
  cases x with
  | none => simp [caseM]
  | some v =>
    cases v with
    | ok a o =>
      constructor
      · intro h; exact .inr (.inl ⟨a, o, rfl, h⟩)
      · rintro (⟨h, _⟩ | ⟨_, _, h, h'⟩ | ⟨_, _, h, _⟩) <;> cases h; exact h'
    | err a o =>
      constructor
      · intro h; exact .inr (.inr ⟨a, o, rfl, h⟩)
      · rintro (⟨h, _⟩ | ⟨_, _, h, _⟩ | ⟨_, _, h, h'⟩) <;> cases h; exact h'
    | panic => simp [caseM, eq_comm]

theorem caseT_some {α γ : Type} {x : Out α} {f : α → Option (CRes σ γ)}
    {g : Error → Option (CRes σ γ)} {r : CRes σ γ} : caseT x f g = some r ↔
      (x = .panic ∧ r = .panic) ∨ (∃ a, x = .ok a ∧ f a = some r) ∨
      (∃ e, x = .err e ∧ g e = some r) := by
  cases x <;> simp [caseT, eq_comm]

end Neure
