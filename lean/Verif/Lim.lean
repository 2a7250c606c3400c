import Verif.Match
/-!
# Fuel: monotonicity and the fuel-free evaluator

`parse` is monotone in its fuel; `lim` takes the limit of a monotone family.
`parseL`/`matL` are the fuel-free evaluators (`none` = the Rust call never
returns) and satisfy the evaluator's equations without fuel.
-/

namespace Neure

set_option linter.unusedSectionVars false

variable {ι β : Type} [Item ι]

/-- `r` is an approximation of `r'`. -/
def Le {α : Type} (r r' : Option α) : Prop := ∀ x, r = some x → r' = some x

theorem Le.refl {α : Type} (r : Option α) : Le r r := fun _ h => h
theorem Le.trans {α : Type} {a b c : Option α} (h : Le a b) (h' : Le b c) : Le a c :=
  fun x hx => h' x (h x hx)
theorem Le.none {α : Type} (r : Option α) : Le none r := fun _ h => by cases h

theorem caseR_le {α γ : Type} {r r' : Option (Res α)} {k k' : α → Nat → Option (Res γ)}
    {e e' : Error → Nat → Option (Res γ)} (h : Le r r') (hk : ∀ a o, Le (k a o) (k' a o))
    (he : ∀ a o, Le (e a o) (e' a o)) : Le (caseR r k e) (caseR r' k' e') := by
  intro x hx
  cases r with
  | none => simp [caseR] at hx
  | some v =>
    rw [h v rfl]
    cases v <;> simp only [caseR] at hx ⊢
    · exact hk _ _ _ hx
    · exact he _ _ _ hx
    · exact hx

theorem caseO_le {α γ : Type} {r r' : Option (Out α)} {k k' : α → Option (Res γ)}
    {e e' : Error → Option (Res γ)} (h : Le r r') (hk : ∀ a, Le (k a) (k' a))
    (he : ∀ a, Le (e a) (e' a)) : Le (caseO r k e) (caseO r' k' e') := by
  intro x hx
  cases r with
  | none => simp [caseO] at hx
  | some v =>
    rw [h v rfl]
    cases v <;> simp only [caseO] at hx ⊢
    · exact hk _ _ hx
    · exact he _ _ hx
    · exact hx

theorem addK_le {γ : Type} {s t : Span} {k k' : Span → Option (Res γ)}
    (hk : ∀ a, Le (k a) (k' a)) : Le (addK s t k) (addK s t k') := by
  unfold addK; split
  · exact Le.refl _
  · exact hk _

theorem remK_le {γ : Type} {d : List ι} {o : Nat} {k k' : Nat → Option (Res γ)}
    (hk : ∀ a, Le (k a) (k' a)) : Le (remK d o k) (remK d o k') := by
  unfold remK; split
  · exact hk _
  · exact Le.refl _

theorem ite_le {α : Type} {c : Prop} [Decidable c] {a b a' b' : Option α} (h : Le a a')
    (h' : Le b b') : Le (if c then a else b) (if c then a' else b') := by
  split <;> assumption

theorem check_le {mt mt' : List ι → Pat ι β → Nat → Option (Res Span)}
    (h : ∀ d p o, Le (mt d p o) (mt' d p o)) (d : List ι) (o : Nat) (c : Cond ι β) (pr : Nat × ι) :
    Le (check mt d o c pr) (check mt' d o c pr) := by
  cases c with
  | empty => exact Le.refl _
  | fn f => exact Le.refl _
  | regex p =>
    unfold check
    simp only
    cases origAt d (o + pr.1) with
    | err e => exact Le.refl _
    | panic => exact Le.refl _
    | ok d' =>
      simp only
      intro x hx
      cases hm : mt d' p 0 with
      | none => simp [hm] at hx
      | some v => rw [h _ _ _ _ hm]; rw [hm] at hx; exact hx

theorem testItem_le {mt mt' : List ι → Pat ι β → Nat → Option (Res Span)}
    (h : ∀ d p o, Le (mt d p o) (mt' d p o)) (d : List ι) (o : Nat) (u : Neu ι) (c : Cond ι β)
    (pr : Nat × ι) : Le (testItem mt d o u c pr) (testItem mt' d o u c pr) := by
  unfold testItem
  exact ite_le (check_le h _ _ _ _) (Le.refl _)

theorem scan_le {t t' : Nat × ι → Option (Out Bool)} (h : ∀ pr, Le (t pr) (t' pr))
    (more : Nat → Bool) (it : List (Nat × ι)) (cnt : Nat) (beg : Option Nat) :
    Le (scan t more cnt beg it) (scan t' more cnt beg it) := by
  induction it generalizing cnt beg with
  | nil => simp only [scan]; exact Le.refl _
  | cons pr it ih =>
    simp only [scan]
    refine ite_le ?_ (Le.refl _)
    intro x hx
    cases ht : t pr with
    | none => simp [ht] at hx
    | some v =>
      rw [h _ _ ht]
      rw [ht] at hx
      rcases v with (_ | _) | _ | _
      · exact hx
      · exact ih _ _ _ hx
      · exact hx
      · exact hx

/-- A family indexed by fuel is monotone. -/
def Mono {α : Type} (f : Nat → Option α) : Prop := ∀ n m, n ≤ m → Le (f n) (f m)

open Classical in
/-- Limit of a monotone family. -/
noncomputable def lim {α : Type} (f : Nat → Option α) : Option α :=
  if h : ∃ n, (f n).isSome then f h.choose else none

theorem lim_eq_some {α : Type} {f : Nat → Option α} (hf : Mono f) (x : α) :
    lim f = some x ↔ ∃ n, f n = some x := by
  unfold lim
  constructor
  · intro h
    split at h
    · exact ⟨_, h⟩
    · cases h
  · rintro ⟨n, hn⟩
    have hex : ∃ n, (f n).isSome := ⟨n, by simp [hn]⟩
    rw [dif_pos hex]
    have hs := hex.choose_spec
    obtain ⟨y, hy⟩ := Option.isSome_iff_exists.mp hs
    rw [hy]
    rcases Nat.le_total n hex.choose with hle | hle
    · rw [← hy]; exact hf _ _ hle _ hn
    · have := hf _ _ hle _ hy
      rw [hn] at this; exact this.symm

theorem lim_eq_none {α : Type} {f : Nat → Option α} (hf : Mono f) :
    lim f = none ↔ ∀ n, f n = none := by
  constructor
  · intro h n
    cases hn : f n with
    | none => rfl
    | some x => rw [(lim_eq_some hf x).mpr ⟨n, hn⟩] at h; cases h
  · intro h
    cases hl : lim f with
    | none => rfl
    | some x =>
      obtain ⟨n, hn⟩ := (lim_eq_some hf x).mp hl
      rw [h n] at hn; cases hn

theorem Mono.const {α : Type} (x : Option α) : Mono fun _ => x := fun _ _ _ => Le.refl _

theorem lim_const {α : Type} (x : Option α) : lim (fun _ => x) = x := by
  cases x with
  | none => rw [lim_eq_none (Mono.const _)]; intro; rfl
  | some y => rw [lim_eq_some (Mono.const _)]; exact ⟨0, rfl⟩

/-- Two monotone families with the same eventual values have the same limit. -/
theorem lim_congr {α : Type} {f g : Nat → Option α} (hf : Mono f) (hg : Mono g)
    (h1 : ∀ n, ∃ m, Le (f n) (g m)) (h2 : ∀ n, ∃ m, Le (g n) (f m)) : lim f = lim g := by
  cases hl : lim f with
  | some x =>
    obtain ⟨n, hn⟩ := (lim_eq_some hf x).mp hl
    obtain ⟨m, hm⟩ := h1 n
    exact ((lim_eq_some hg x).mpr ⟨m, hm x hn⟩).symm
  | none =>
    symm
    rw [lim_eq_none hg]
    intro n
    cases hn : g n with
    | none => rfl
    | some x =>
      obtain ⟨m, hm⟩ := h2 n
      have := (lim_eq_none hf).mp hl m
      rw [hm x hn] at this; cases this

theorem lim_succ {α : Type} {f : Nat → Option α} (hf : Mono f) : lim (fun n => f (n + 1)) = lim f := by
  apply lim_congr
  · intro n m h; exact hf _ _ (by omega)
  · exact hf
  · intro n; exact ⟨n + 1, Le.refl _⟩
  · intro n; exact ⟨n, hf _ _ (by omega)⟩

theorem caseR_mono {α γ : Type} {r : Nat → Option (Res α)} {k : Nat → α → Nat → Option (Res γ)}
    {e : Nat → Error → Nat → Option (Res γ)} (h : Mono r) (hk : ∀ a o, Mono fun n => k n a o)
    (he : ∀ a o, Mono fun n => e n a o) : Mono fun n => caseR (r n) (k n) (e n) :=
  fun n m hnm => caseR_le (h n m hnm) (fun a o => hk a o n m hnm) (fun a o => he a o n m hnm)

theorem lim_caseR {α γ : Type} {r : Nat → Option (Res α)} {k : Nat → α → Nat → Option (Res γ)}
    {e : Nat → Error → Nat → Option (Res γ)} (h : Mono r) (hk : ∀ a o, Mono fun n => k n a o)
    (he : ∀ a o, Mono fun n => e n a o) :
    lim (fun n => caseR (r n) (k n) (e n)) =
      caseR (lim r) (fun a o => lim fun n => k n a o) (fun a o => lim fun n => e n a o) := by
  have hm := caseR_mono h hk he
  cases hl : lim r with
  | none =>
    have := (lim_eq_none h).mp hl
    rw [show caseR (none : Option (Res α)) (fun a o => lim fun n => k n a o)
      (fun a o => lim fun n => e n a o) = none from rfl, lim_eq_none hm]
    intro n; rw [this n]; rfl
  | some v =>
    obtain ⟨n0, hn0⟩ := (lim_eq_some h v).mp hl
    cases v with
    | panic =>
      rw [show caseR (some (.panic : Res α)) (fun a o => lim fun n => k n a o)
        (fun a o => lim fun n => e n a o) = some .panic from rfl, lim_eq_some hm]
      exact ⟨n0, by rw [hn0]; rfl⟩
    | ok a o =>
      rw [show caseR (some (.ok a o : Res α)) (fun a o => lim fun n => k n a o)
        (fun a o => lim fun n => e n a o) = lim fun n => k n a o from rfl]
      apply lim_congr hm (hk a o)
      · intro n
        refine ⟨n, fun x hx => ?_⟩
        cases hrn : r n with
        | none => simp [hrn, caseR] at hx
        | some w =>
          have : w = .ok a o := by
            have := (lim_eq_some h w).mpr ⟨n, hrn⟩
            rw [hl] at this; exact (Option.some.inj this).symm
          subst this
          simpa [hrn, caseR] using hx
      · intro n
        refine ⟨max n n0, fun x hx => ?_⟩
        rw [h n0 _ (Nat.le_max_right _ _) _ hn0]
        exact hk a o n _ (Nat.le_max_left _ _) x hx
    | err a o =>
      rw [show caseR (some (.err a o : Res α)) (fun a o => lim fun n => k n a o)
        (fun a o => lim fun n => e n a o) = lim fun n => e n a o from rfl]
      apply lim_congr hm (he a o)
      · intro n
        refine ⟨n, fun x hx => ?_⟩
        cases hrn : r n with
        | none => simp [hrn, caseR] at hx
        | some w =>
          have : w = .err a o := by
            have := (lim_eq_some h w).mpr ⟨n, hrn⟩
            rw [hl] at this; exact (Option.some.inj this).symm
          subst this
          simpa [hrn, caseR] using hx
      · intro n
        refine ⟨max n n0, fun x hx => ?_⟩
        rw [h n0 _ (Nat.le_max_right _ _) _ hn0]
        exact he a o n _ (Nat.le_max_left _ _) x hx

theorem caseO_mono {α γ : Type} {r : Nat → Option (Out α)} {k : Nat → α → Option (Res γ)}
    {e : Nat → Error → Option (Res γ)} (h : Mono r) (hk : ∀ a, Mono fun n => k n a)
    (he : ∀ a, Mono fun n => e n a) : Mono fun n => caseO (r n) (k n) (e n) :=
  fun n m hnm => caseO_le (h n m hnm) (fun a => hk a n m hnm) (fun a => he a n m hnm)

theorem lim_caseO {α γ : Type} {r : Nat → Option (Out α)} {k : Nat → α → Option (Res γ)}
    {e : Nat → Error → Option (Res γ)} (h : Mono r) (hk : ∀ a, Mono fun n => k n a)
    (he : ∀ a, Mono fun n => e n a) :
    lim (fun n => caseO (r n) (k n) (e n)) =
      caseO (lim r) (fun a => lim fun n => k n a) (fun a => lim fun n => e n a) := by
  have hm := caseO_mono h hk he
  cases hl : lim r with
  | none =>
    have := (lim_eq_none h).mp hl
    rw [show caseO (none : Option (Out α)) (fun a => lim fun n => k n a)
      (fun a => lim fun n => e n a) = none from rfl, lim_eq_none hm]
    intro n; rw [this n]; rfl
  | some v =>
    obtain ⟨n0, hn0⟩ := (lim_eq_some h v).mp hl
    have key : ∀ n w, r n = some w → w = v := by
      intro n w hrn
      have := (lim_eq_some h w).mpr ⟨n, hrn⟩
      rw [hl] at this; exact (Option.some.inj this).symm
    cases v with
    | panic =>
      rw [show caseO (some (.panic : Out α)) (fun a => lim fun n => k n a)
        (fun a => lim fun n => e n a) = some .panic from rfl, lim_eq_some hm]
      exact ⟨n0, by rw [hn0]; rfl⟩
    | ok a =>
      rw [show caseO (some (.ok a : Out α)) (fun a => lim fun n => k n a)
        (fun a => lim fun n => e n a) = lim fun n => k n a from rfl]
      apply lim_congr hm (hk a)
      · intro n
        refine ⟨n, fun x hx => ?_⟩
        cases hrn : r n with
        | none => simp [hrn, caseO] at hx
        | some w => have := key n w hrn; subst this; simpa [hrn, caseO] using hx
      · intro n
        refine ⟨max n n0, fun x hx => ?_⟩
        rw [h n0 _ (Nat.le_max_right _ _) _ hn0]
        exact hk a n _ (Nat.le_max_left _ _) x hx
    | err a =>
      rw [show caseO (some (.err a : Out α)) (fun a => lim fun n => k n a)
        (fun a => lim fun n => e n a) = lim fun n => e n a from rfl]
      apply lim_congr hm (he a)
      · intro n
        refine ⟨n, fun x hx => ?_⟩
        cases hrn : r n with
        | none => simp [hrn, caseO] at hx
        | some w => have := key n w hrn; subst this; simpa [hrn, caseO] using hx
      · intro n
        refine ⟨max n n0, fun x hx => ?_⟩
        rw [h n0 _ (Nat.le_max_right _ _) _ hn0]
        exact he a n _ (Nat.le_max_left _ _) x hx

theorem addK_mono {γ : Type} {s t : Span} {k : Nat → Span → Option (Res γ)}
    (hk : ∀ a, Mono fun n => k n a) : Mono fun n => addK s t (k n) :=
  fun n m h => addK_le (fun a => hk a n m h)

theorem lim_addK {γ : Type} {s t : Span} {k : Nat → Span → Option (Res γ)} :
    lim (fun n => addK s t (k n)) = addK s t (fun a => lim fun n => k n a) := by
  unfold addK
  split
  · exact lim_const _
  · rfl

theorem lim_remK {γ : Type} {d : List ι} {o : Nat} {k : Nat → Nat → Option (Res γ)} :
    lim (fun n => remK d o (k n)) = remK d o (fun a => lim fun n => k n a) := by
  unfold remK
  split
  · rfl
  · exact lim_const _

theorem lim_ite {γ : Type} {c : Prop} [Decidable c] {a b : Nat → Option γ} :
    lim (fun n => if c then a n else b n) = if c then lim a else lim b := by
  split <;> rfl

theorem ite_mono {γ : Type} {c : Prop} [Decidable c] {a b : Nat → Option γ} (ha : Mono a)
    (hb : Mono b) : Mono fun n => if c then a n else b n :=
  fun n m h => ite_le (ha n m h) (hb n m h)

end Neure
