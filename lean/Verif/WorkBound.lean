import Verif.Work
/-!
# Counting calls: the bound
-/

namespace Neure

set_option linter.unusedSectionVars false

variable {ι β σ : Type} [Item ι] {G : Rules ι β} {H : Handler ι β σ} {pol : Option (Pat ι β)} {d : List ι}

/-! ## Counted runs are runs -/

theorem impMat_parse (n : Nat) (pol : Option (Pat ι β)) (d : List ι) (p : Pat ι β) :
    impMat (impParse (σ := σ) G n) pol d p = liftR (tryMat G n pol d p) := by
  have : impParse (σ := σ) G n = fun pol d p => liftR (parse G n pol d p) := by
    funext pol d p; exact imp_parse G n pol d p
  rw [this]; exact imp_mat _ _ _ _

theorem liftR_inv {α : Type} {f : Nat → Option (Res α)} {s s' : σ} {o o' : Nat} {r : Except Error α}
    (h : liftR f s o = some (.done r s' o')) :
    s' = s ∧ (match r with | .ok a => f o = some (.ok a o') | .error e => f o = some (.err e o')) := by
  unfold liftR at h
  split at h <;> cases h
  · exact ⟨rfl, by assumption⟩
  · exact ⟨rfl, by assumption⟩

theorem liftC_inv {α : Type} {f : σ → Nat → Option (CRes σ α)} {s s' : σ} {o o' : Nat} {r : Except Error α}
    (h : liftC f s o = some (.done r s' o')) :
    match r with | .ok a => f s o = some (.ok a s' o') | .error e => f s o = some (.err e s' o') := by
  unfold liftC at h
  split at h <;> cases h <;> assumption

theorem workMat_run {n : Nat} {p : Pat ι β} {s s' : σ × Nat} {o o' : Nat} {r : Except Error Span}
    (h : workMat G n pol d p s o = some (.done r s' o')) :
    s'.1 = s.1 ∧ match r with | .ok a => Runs G pol d p o (.ok a o') | .error e => Runs G pol d p o (.err e o') := by
  have := rel_mat (work_erase (σ := σ) G n) pol d p s s.1 o rfl
  rw [show impMat (workParse G n) pol d p s o = workMat G n pol d p s o from rfl, h] at this
  obtain ⟨t, ht, e⟩ := this
  rw [impMat_parse] at ht
  obtain ⟨h1, h2⟩ := liftR_inv ht
  refine ⟨e.trans h1, ?_⟩
  cases r with
  | ok a => exact ⟨n, h2⟩
  | error e => exact ⟨n, h2⟩

theorem workCon_run {n : Nat} {p : Pat ι β} {s s' : σ × Nat} {o o' : Nat} {r : Except Error (Val β)}
    (h : workCon G H n pol d p s o = some (.done r s' o')) :
    match r with
    | .ok a => Constructs G H pol d p s.1 o (.ok a s'.1 o')
    | .error e => Constructs G H pol d p s.1 o (.err e s'.1 o') := by
  have := workCon_erase G H n pol d p s s.1 o rfl
  rw [h] at this
  obtain ⟨t, ht, e⟩ := this
  rw [imp_con] at ht
  have h2 := liftC_inv ht
  subst e
  cases r with
  | ok a => exact ⟨n, h2⟩
  | error e => exact ⟨n, h2⟩

/-! ## Matching -/

/-- One call of `try_parse` makes at most `w` calls. -/
def ParseCost (G : Rules ι β) (pol : Option (Pat ι β)) (σ : Type) (n : Nat) (d : List ι) (p : Pat ι β) (w : Nat) : Prop :=
  ∀ (s : σ × Nat) (o : Nat), o ≤ blen d → WP (workParse G n pol d p) (fun _ s' _ => s'.2 ≤ s.2 + w) s o

/-- The policy makes at most `e` calls and stays inside. -/
def PolicyCost (G : Rules ι β) (pol : Option (Pat ι β)) (L e : Nat) : Prop :=
  ∀ q, pol = some q → (∀ d, MovesForward G none d q) ∧
    ∀ (σ : Type) n d, blen d ≤ L → ParseCost G none σ n d q e

theorem mat_cost {L e w n : Nat} {p : Pat ι β} (hp : PolicyCost G pol L e) (hL : blen d ≤ L)
    (h : ParseCost G pol σ n d p w) (s : σ × Nat) (o : Nat) (ho : o ≤ blen d) :
    WP (workMat G n pol d p) (fun _ s' _ => s'.2 ≤ s.2 + (e + w)) s o := by
  cases pol with
  | none => exact (h s o ho).mono fun _ _ _ h => by omega
  | some q =>
    obtain ⟨h1, h2⟩ := hp q rfl
    refine WP.bind_ ?_
    intro r s1 o1 hr
    have c1 := h2 σ n d hL s o ho r s1 o1 hr
    have := workMat_run (pol := none) (show workMat G n none d q s o = _ from hr)
    cases r with
    | error e => exact WP.pure_ (by omega)
    | ok a =>
      have hb := (h1 d o ho).1 a o1 this.2
      exact (h s1 o1 hb.2).mono fun _ _ _ h => by omega

theorem mat_spends {L e w n : Nat} {p : Pat ι β} (hp : PolicyCost G pol L e) (hL : blen d ≤ L)
    (hf : MovesForward G pol d p) (h : ParseCost G pol σ n d p w) : Spends (blen d) (workMat (σ := σ) G n pol d p) (e + w) := by
  intro s o ho r s' o' hr
  refine ⟨mat_cost hp hL h s o ho r s' o' hr, ?_⟩
  have := (workMat_run hr).2
  cases r with
  | ok a => exact (hf o ho).1 _ _ this
  | error e => exact (hf o ho).2 _ _ this

theorem mat_advances {n : Nat} {p : Pat ι β} (he : EatsIn G pol d p) :
    Advances (blen d) (workMat (σ := σ) G n pol d p) := by
  intro s o ho r s' o' hr a ha
  subst ha
  exact he o a o' ho (workMat_run hr).2

theorem parse_cost_step {p : Pat ι β} {w v : Nat} (hv : 1 + w ≤ v) {n : Nat}
    (h : ∀ m (s : σ × Nat) o, n = m + 1 → o ≤ blen d → WP (impStep G m (workMat G m pol) (workParse G m pol d) d p)
      (fun _ s' _ => s'.2 ≤ s.2 + w) s o) : ParseCost G pol σ n d p v := by
  intro s o ho
  cases n with
  | zero => rintro _ _ _ ⟨⟩
  | succ m =>
    intro r s' o' hr
    have := h m (s.1, s.2 + 1) o rfl ho r s' o' hr
    simp only at this
    omega

theorem parse_cost {eats : Pat ι β → Prop} {e L : Nat} (hpol : PolicyCost G pol L e)
    (he : ∀ q, eats q → ∀ d, EatsIn G pol d q) {p : Pat ι β} {w : Nat} (h : CallsAtMost G eats e L p w) :
    All G (StaysIn G pol) p → ∀ (n : Nat) (d : List ι), blen d ≤ L → ParseCost G pol σ n d p w := by
  have sp : ∀ {q w n d}, blen d ≤ L → All G (StaysIn G pol) q → ParseCost G pol σ n d q w →
      Spends (blen d) (workMat (σ := σ) G n pol d q) (e + w) := fun hL ha h => mat_spends hpol hL (ha.self.1 _) h
  induction h with
  | mono _ hw ih => exact fun ha n d hL s o ho => (ih ha n d hL s o ho).mono fun _ _ _ h => by omega
  | plain hp =>
    intro _ n d hL
    exact parse_cost_step (w := 0) (by omega) fun m s o _ _ => (spend_plain G m _ _ hp s o).mono fun _ _ _ h => by omega
  | @plainUnit p c hc hn =>
    intro _ n d hL
    refine parse_cost_step (w := 0) (by omega) fun m s o _ _ =>
      (spend_unit (L := L) (w := 0) G m _ hc hL ?_ s o).mono fun _ _ _ h => by simpa using h
    exact fun _ q hq => absurd hq (hn q)
  | @unit p c w hc _ ih =>
    intro ha n d hL
    refine parse_cost_step (w := (L + 2) * (e + w)) (by omega) fun m s o _ _ => spend_unit G m _ hc hL ?_ s o
    rintro d' q hq ⟨k, hk⟩ s
    have := origAt_len hk
    have hch : Child G q p := by
      cases p <;> simp only [condOf, reduceCtorEq, Option.some.injEq] at hc <;> subst hc <;> exact hq
    exact mat_cost hpol (by omega) (ih q hq (ha.child hch) m d' (by omega)) s 0 (Nat.zero_le _)
  | @assert q v w _ ih =>
    intro ha n d hL
    have c := ha.child (q := q) rfl
    exact parse_cost_step (w := e + w) (by omega) fun m s o _ ho => spend_assert (sp hL c (ih c m d hL)) v s o ho
  | @build q f x y _ _ ih1 ih2 =>
    intro ha n d hL
    have c := ha.child (q := q) (.inl rfl)
    refine parse_cost_step (w := (e + x) + (e + y)) (by omega) fun m s o _ ho =>
      spend_build (sp hL c (ih1 c m d hL)) (fun o s q' o' ho hq => ?_) s o ho
    have c2 := ha.child (q := q') (.inr ⟨_, _, _, _, hq⟩)
    exact ⟨ha.self.2 d o s q' o' ho hq, sp hL c2 (ih2 _ _ _ _ _ hq c2 m d hL)⟩
  | @thn a b x y _ _ ih1 ih2 =>
    intro ha n d hL
    have c1 := ha.child (q := a) (.inl rfl)
    have c2 := ha.child (q := b) (.inr rfl)
    exact parse_cost_step (w := (e + x) + (e + y)) (by omega) fun m s o _ ho =>
      spend_thn (sp hL c1 (ih1 c1 m d hL)) (sp hL c2 (ih2 c2 m d hL)) s o ho
  | @pre a b x y _ _ ih1 ih2 =>
    intro ha n d hL
    have c1 := ha.child (q := a) (.inl rfl)
    have c2 := ha.child (q := b) (.inr rfl)
    exact parse_cost_step (w := (e + x) + (e + y)) (by omega) fun m s o _ ho =>
      spend_pre (sp hL c1 (ih1 c1 m d hL)) (sp hL c2 (ih2 c2 m d hL)) s o ho
  | @suf a b x y _ _ ih1 ih2 =>
    intro ha n d hL
    have c1 := ha.child (q := a) (.inl rfl)
    have c2 := ha.child (q := b) (.inr rfl)
    exact parse_cost_step (w := (e + x) + (e + y)) (by omega) fun m s o _ ho =>
      spend_suf (sp hL c1 (ih1 c1 m d hL)) (sp hL c2 (ih2 c2 m d hL)) s o ho
  | @or a b x y _ _ ih1 ih2 =>
    intro ha n d hL
    have c1 := ha.child (q := a) (.inl rfl)
    have c2 := ha.child (q := b) (.inr rfl)
    exact parse_cost_step (w := (e + x) + (e + y)) (by omega) fun m s o _ ho =>
      spend_or (sp hL c1 (ih1 c1 m d hL)) (sp hL c2 (ih2 c2 m d hL)) s o ho
  | @longest a b x y _ _ ih1 ih2 =>
    intro ha n d hL
    have c1 := ha.child (q := a) (.inl rfl)
    have c2 := ha.child (q := b) (.inr rfl)
    exact parse_cost_step (w := (e + x) + (e + y)) (by omega) fun m s o _ ho =>
      spend_longest (sp hL c1 (ih1 c1 m d hL)) (sp hL c2 (ih2 c2 m d hL)) s o ho
  | @branch t a b x y _ _ ih1 ih2 =>
    intro ha n d hL
    have c1 := ha.child (q := a) (.inl rfl)
    have c2 := ha.child (q := b) (.inr rfl)
    exact parse_cost_step (w := (e + x) + (e + y)) (by omega) fun m s o _ ho =>
      spend_branch (sp hL c1 (ih1 c1 m d hL)) (sp hL c2 (ih2 c2 m d hL)) d t s o ho
  | @ifThen a b c x y z _ _ _ ih1 ih2 ih3 =>
    intro ha n d hL
    have c1 := ha.child (q := a) (.inl rfl)
    have c2 := ha.child (q := b) (.inr (.inl rfl))
    have c3 := ha.child (q := c) (.inr (.inr rfl))
    exact parse_cost_step (w := (e + x) + (e + y) + (e + z)) (by omega) fun m s o _ ho =>
      spend_ifThen (sp hL c1 (ih1 c1 m d hL)) (sp hL c2 (ih2 c2 m d hL)) (sp hL c3 (ih3 c3 m d hL)) s o ho
  | @enclose a b c x y z _ _ _ ih1 ih2 ih3 =>
    intro ha n d hL
    have c1 := ha.child (q := a) (.inl rfl)
    have c2 := ha.child (q := b) (.inr (.inl rfl))
    have c3 := ha.child (q := c) (.inr (.inr rfl))
    exact parse_cost_step (w := (e + x) + (e + y) + (e + z)) (by omega) fun m s o _ ho =>
      spend_enclose (sp hL c1 (ih1 c1 m d hL)) (sp hL c2 (ih2 c2 m d hL)) (sp hL c3 (ih3 c3 m d hL)) s o ho
  | @sepOnce a b c x y z _ _ _ ih1 ih2 ih3 =>
    intro ha n d hL
    have c1 := ha.child (q := a) (.inl rfl)
    have c2 := ha.child (q := b) (.inr (.inl rfl))
    have c3 := ha.child (q := c) (.inr (.inr rfl))
    exact parse_cost_step (w := (e + x) + (e + y) + (e + z)) (by omega) fun m s o _ ho =>
      spend_sepOnce (sp hL c1 (ih1 c1 m d hL)) (sp hL c2 (ih2 c2 m d hL)) (sp hL c3 (ih3 c3 m d hL)) s o ho
  | @opt q x _ ih =>
    intro ha n d hL
    have c := ha.child (q := q) rfl
    exact parse_cost_step (w := e + x) (by omega) fun m s o _ ho => spend_opt (sp hL c (ih c m d hL)) s o ho
  | @map q f x _ ih =>
    intro ha n d hL
    have c := ha.child (q := q) rfl
    exact parse_cost_step (w := e + x) (by omega) fun m s o _ ho => mat_cost hpol hL (ih c m d hL) s o ho
  | @pat q x _ ih =>
    intro ha n d hL
    have c := ha.child (q := q) rfl
    exact parse_cost_step (w := e + x) (by omega) fun m s o _ ho => mat_cost hpol hL (ih c m d hL) s o ho
  | dthen =>
    intro ha n d hL
    exact parse_cost_step (w := 0) (by omega) fun m s o _ ho => WP.panic__
  | @choice err items x _ ih =>
    intro ha n d hL
    exact parse_cost_step (w := items.length * (e + x)) (by omega) fun m s o _ ho => spend_choice (fun it hit => by
      have c := ha.child (q := it.1) ⟨it, hit, rfl⟩
      exact sp hL c (ih it hit c m d hL)) err s o ho
  | @ltm err items x _ ih =>
    intro ha n d hL
    exact parse_cost_step (w := items.length * (e + x)) (by omega) fun m s o _ ho => spend_ltm (fun it hit => by
      have c := ha.child (q := it.1) ⟨it, hit, rfl⟩
      exact sp hL c (ih it hit c m d hL)) err s o ho
  | @repMost q r k x hr _ ih =>
    intro ha n d hL
    have c := ha.child (q := q) rfl
    exact parse_cost_step (w := (k + 1) * (e + x)) (by omega) fun m s o _ ho =>
      spend_repMost (sp hL c (ih c m d hL)) hr m s o ho
  | @rep q r x hq _ ih =>
    intro ha n d hL
    have c := ha.child (q := q) rfl
    have := Nat.mul_le_mul_right (e + x) (show blen d + 1 ≤ L + 1 by omega)
    exact parse_cost_step (w := (blen d + 1) * (e + x)) (by omega) fun m s o _ ho =>
      spend_rep (sp hL c (ih c m d hL)) (mat_advances (he q hq d)) r m s o ho
  | @rep2 q m' k x _ ih =>
    intro ha n d hL
    have c := ha.child (q := q) rfl
    exact parse_cost_step (w := (k + 2) * (e + x)) (by omega) fun m s o _ ho =>
      spend_rep2 (sp hL c (ih c m d hL)) m' k m s o ho
  | @collect q m' x hq _ ih =>
    intro ha n d hL
    have c := ha.child (q := q) rfl
    have := Nat.mul_le_mul_right (e + x) (show blen d + 1 ≤ L + 1 by omega)
    exact parse_cost_step (w := (blen d + 1) * (e + x)) (by omega) fun m s o _ ho =>
      spend_collect (sp hL c (ih c m d hL)) (mat_advances (he q hq d)) m' m s o ho
  | @sep q s' skip m' x y hq _ _ ih1 ih2 =>
    intro ha n d hL
    have c1 := ha.child (q := q) (.inl rfl)
    have c2 := ha.child (q := s') (.inr rfl)
    have := Nat.mul_le_mul_right (e + x + (e + y)) (show blen d + 1 ≤ L + 1 by omega)
    exact parse_cost_step (w := (blen d + 1) * (e + x + (e + y))) (by omega) fun m s o _ ho =>
      spend_sep (sp hL c1 (ih1 c1 m d hL)) (sp hL c2 (ih2 c2 m d hL))
        (hq.imp (fun h => mat_advances (he q h d)) (fun h => mat_advances (he s' h d))) skip m' m s o ho
  | @sepCollect q s' skip m' x y hq _ _ ih1 ih2 =>
    intro ha n d hL
    have c1 := ha.child (q := q) (.inl rfl)
    have c2 := ha.child (q := s') (.inr rfl)
    have := Nat.mul_le_mul_right (e + x + (e + y)) (show blen d + 2 ≤ L + 2 by omega)
    exact parse_cost_step (w := (blen d + 2) * (e + x + (e + y))) (by omega) fun m s o _ ho =>
      spend_sepCollect (sp hL c1 (ih1 c1 m d hL)) (sp hL c2 (ih2 c2 m d hL))
        (hq.imp (fun h => mat_advances (he q h d)) (fun h => mat_advances (he s' h d))) skip m' m s o ho
  | @sep2 q s' skip m' k x y _ _ ih1 ih2 =>
    intro ha n d hL
    have c1 := ha.child (q := q) (.inl rfl)
    have c2 := ha.child (q := s') (.inr rfl)
    exact parse_cost_step (w := (k + 2) * (e + x + (e + y))) (by omega) fun m s o _ ho =>
      spend_sep2 (sp hL c1 (ih1 c1 m d hL)) (sp hL c2 (ih2 c2 m d hL)) skip m' k m s o ho
  | @cell i q x hi _ ih =>
    intro ha n d hL
    have c := ha.child (q := q) hi
    refine parse_cost_step (w := x) (by omega) fun m s o _ ho => ?_
    simp only [impStep, hi]
    exact ih c m d hL s o ho
  | @unset i hi =>
    intro ha n d hL
    refine parse_cost_step (w := 0) (by omega) fun m s o _ ho => ?_
    simp only [impStep, hi]
    exact WP.pure_ (by omega)

/-! ## Building values -/

/-- One call of `construct` makes at most `w` calls. -/
def ConCost (G : Rules ι β) (H : Handler ι β σ) (pol : Option (Pat ι β)) (n : Nat) (d : List ι) (p : Pat ι β) (w : Nat) :
    Prop :=
  ∀ (s : σ × Nat) (o : Nat), o ≤ blen d → WP (workCon G H n pol d p) (fun _ s' _ => s'.2 ≤ s.2 + w) s o

/-- The local condition: matched parts and closures stay inside. -/
def CStaysIn (G : Rules ι β) (pol : Option (Pat ι β)) (d : List ι) (q : Pat ι β) : Prop :=
  (∀ m, MatchPart m q → All G (StaysIn G pol) m) ∧ DynForward d q

theorem con_spends {w v n : Nat} {p : Pat ι β} (ha : CAll G (CStaysIn G pol d) p) (h : ConCost G H pol n d p w)
    (hv : w ≤ v) : Spends (blen d) (workCon G H n pol d p) v := by
  intro s o ho r s' o' hr
  refine ⟨Nat.le_trans (h s o ho r s' o' hr) (by omega), ?_⟩
  have hf : CAll G (CForward G pol d) p := ha.mono fun q hq => ⟨fun m hm => (hq.1 m hm).self.1 d, hq.2⟩
  have := workCon_run hr
  cases r with
  | ok a => obtain ⟨k, hk⟩ := this; exact con_post k hf s.1 o ho _ hk
  | error e => obtain ⟨k, hk⟩ := this; exact con_post k hf s.1 o ho _ hk

theorem con_advances {n : Nat} {p : Pat ι β} (he : CEats G H pol d p) :
    Advances (blen d) (workCon G H n pol d p) := by
  intro s o ho r s' o' hr a ha
  subst ha
  exact he o s.1 a s'.1 o' ho (workCon_run hr)

theorem con_cost_step {p : Pat ι β} {w v : Nat} (hv : 1 + w ≤ v) {n : Nat}
    (h : ∀ m (s : σ × Nat) o, n = m + 1 → o ≤ blen d →
      WP (impConStep G H.beside m (workMat G m pol d) (workMat G (m + 1) pol d p) (workCon G H m pol d) d p)
      (fun _ s' _ => s'.2 ≤ s.2 + w) s o) : ConCost G H pol n d p v := by
  intro s o ho
  cases n with
  | zero => rintro _ _ _ ⟨⟩
  | succ m =>
    intro r s' o' hr
    have := h m (s.1, s.2 + 1) o rfl ho r s' o' hr
    simp only at this
    omega

theorem con_cost {eats : Pat ι β → Prop} {e L : Nat} (hpol : PolicyCost G pol L e)
    (he : ∀ q, eats q → ∀ d, EatsIn G pol d q) (hL : blen d ≤ L) (hc : ∀ q, eats q → CEats G H pol d q)
    {p : Pat ι β} {w : Nat} (h : CallsAtMost G eats e L p w) :
    CAll G (CStaysIn G pol d) p → ∀ (n : Nat), ConCost G H pol n d p w := by
  have sp : ∀ {q w n}, CallsAtMost G eats e L q w → All G (StaysIn G pol) q →
      Spends (blen d) (workMat (σ := σ) G n pol d q) (e + w) :=
    fun hq ha => mat_spends hpol hL (ha.self.1 _) (parse_cost hpol he hq ha _ d hL)
  have leaf : ∀ {q w n}, CallsAtMost G eats e L q w → All G (StaysIn G pol) q → ∀ (s : σ × Nat) o, o ≤ blen d →
      WP (workMat G n pol d q) (fun _ s' _ => s'.2 ≤ s.2 + (e + w)) s o :=
    fun hq ha => mat_cost hpol hL (parse_cost hpol he hq ha _ d hL)
  have cs : ∀ {q w n}, CAll G (CStaysIn G pol d) q → ConCost G H pol n d q w →
      Spends (blen d) (workCon G H n pol d q) (e + w) := fun ha h => con_spends ha h (by omega)
  induction h with
  | mono _ hw ih => exact fun ha n s o ho => (ih ha n s o ho).mono fun _ _ _ h => by omega
  | @plain p hp =>
    intro ha n
    refine con_cost_step (w := e + 1) (by omega) fun m s o _ ho => ?_
    have hm : WP (workMat G (m + 1) pol d p) (fun _ s' _ => s'.2 ≤ s.2 + (e + 1)) s o :=
      mat_cost hpol hL (parse_cost_step (w := 0) (by omega) fun m s o _ _ =>
        (spend_plain G m _ _ hp s o).mono fun _ _ _ h => by omega) s o ho
    cases p <;> first | exact hp.elim | exact spend_invoke hm
  | @plainUnit p c hp hn =>
    intro ha n
    refine con_cost_step (w := e + 1) (by omega) fun m s o _ ho => ?_
    have hm : WP (workMat G (m + 1) pol d p) (fun _ s' _ => s'.2 ≤ s.2 + (e + 1)) s o :=
      mat_cost hpol hL (parse_cost_step (w := 0) (by omega) fun m s o _ _ =>
        (spend_unit (L := L) (w := 0) G m _ hp hL (fun _ q hq => absurd hq (hn q)) s o).mono
          fun _ _ _ h => by simpa using h) s o ho
    cases p <;> simp only [condOf, reduceCtorEq] at hp <;> exact spend_invoke hm
  | @unit p c w hp hq ih =>
    intro ha n
    have hself : All G (StaysIn G pol) p := by
      refine ha.self.1 p ?_
      cases p <;> simp only [condOf, reduceCtorEq] at hp <;> rfl
    have hpc : ParseCost G pol σ n d p (1 + (L + 2) * (e + w)) := by
      refine parse_cost_step (w := (L + 2) * (e + w)) (by omega) fun m s o _ _ => spend_unit G m _ hp hL ?_ s o
      rintro d' q hq' ⟨k, hk⟩ s
      have := origAt_len hk
      have hch : Child G q p := by
        cases p <;> simp only [condOf, reduceCtorEq, Option.some.injEq] at hp <;> subst hp <;> exact hq'
      exact mat_cost hpol (by omega) (parse_cost hpol he (hq q hq') (hself.child hch) m d' (by omega)) s 0 (Nat.zero_le _)
    refine con_cost_step (w := e + (1 + (L + 2) * (e + w))) (by omega) fun m s o hn ho => ?_
    subst hn
    have hm := mat_cost hpol hL hpc s o ho
    cases p <;> simp only [condOf, reduceCtorEq] at hp <;> exact spend_invoke hm
  | @assert q v w hq ih =>
    intro ha n
    have hself := ha.self.1 _ rfl
    have c := hself.child (q := q) rfl
    refine con_cost_step (w := e + (1 + (e + w))) (by omega) fun m s o hn ho => spend_invoke ?_
    exact mat_cost hpol hL (parse_cost_step (p := .assert q v) (w := e + w) (by omega) fun m s o _ ho =>
      spend_assert (sp hq c) v s o ho) s o ho
  | @build q f x y hq hf ih1 ih2 =>
    intro ha n
    have hself := ha.self.1 _ rfl
    have c := hself.child (q := q) (.inl rfl)
    refine con_cost_step (w := e + (1 + ((e + x) + (e + y)))) (by omega) fun m s o hn ho => spend_invoke ?_
    refine mat_cost hpol hL (parse_cost_step (p := .build q f) (w := (e + x) + (e + y)) (by omega) fun m s o _ ho =>
      spend_build (sp hq c) (fun o s q' o' ho hq => ?_) s o ho) s o ho
    have c2 := hself.child (q := q') (.inr ⟨_, _, _, _, hq⟩)
    exact ⟨hself.self.2 d o s q' o' ho hq, sp (hf _ _ _ _ _ hq) c2⟩
  | @thn a b x y h0 h1 ih0 ih1 =>
    intro ha n
    have c0 := ha.child (q := a) (.inl rfl)
    have c1 := ha.child (q := b) (.inr rfl)
    exact con_cost_step (w := (e + x) + (e + y)) (by omega) fun m s o _ ho =>
      spend_thnC (cs c0 (ih0 c0 m)) (cs c1 (ih1 c1 m)) s o ho
  | @pre a b x y h0 h1 ih0 ih1 =>
    intro ha n
    have c0 := ha.self.1 a rfl
    have c1 := ha.child (q := b) rfl
    exact con_cost_step (w := (e + x) + (e + y)) (by omega) fun m s o _ ho =>
      spend_preC (sp h0 c0) (cs c1 (ih1 c1 m)) s o ho
  | @suf a b x y h0 h1 ih0 ih1 =>
    intro ha n
    have c0 := ha.child (q := a) rfl
    have c1 := ha.self.1 b rfl
    exact con_cost_step (w := (e + x) + (e + y)) (by omega) fun m s o _ ho =>
      spend_sufC (cs c0 (ih0 c0 m)) (sp h1 c1) s o ho
  | @or a b x y h0 h1 ih0 ih1 =>
    intro ha n
    have c0 := ha.child (q := a) (.inl rfl)
    have c1 := ha.child (q := b) (.inr rfl)
    exact con_cost_step (w := (e + x) + (e + y)) (by omega) fun m s o _ ho =>
      spend_orC (cs c0 (ih0 c0 m)) (cs c1 (ih1 c1 m)) s o ho
  | @longest a b x y h0 h1 ih0 ih1 =>
    intro ha n
    have c0 := ha.child (q := a) (.inl rfl)
    have c1 := ha.child (q := b) (.inr rfl)
    exact con_cost_step (w := (e + x) + (e + y)) (by omega) fun m s o _ ho =>
      spend_longestC (cs c0 (ih0 c0 m)) (cs c1 (ih1 c1 m)) s o ho
  | @branch t a b x y h0 h1 ih0 ih1 =>
    intro ha n
    have c0 := ha.child (q := a) (.inl rfl)
    have c1 := ha.child (q := b) (.inr rfl)
    exact con_cost_step (w := (e + x) + (e + y)) (by omega) fun m s o _ ho =>
      spend_branchC (cs c0 (ih0 c0 m)) (cs c1 (ih1 c1 m)) d t s o ho
  | @ifThen a b c x y z h0 h1 h2 ih0 ih1 ih2 =>
    intro ha n
    have c0 := ha.child (q := a) (.inl rfl)
    have c1 := ha.self.1 b rfl
    have c2 := ha.child (q := c) (.inr rfl)
    exact con_cost_step (w := (e + x) + (e + y) + (e + z)) (by omega) fun m s o _ ho =>
      spend_ifThenC (cs c0 (ih0 c0 m)) (sp h1 c1) (cs c2 (ih2 c2 m)) s o ho
  | @enclose a b c x y z h0 h1 h2 ih0 ih1 ih2 =>
    intro ha n
    have c0 := ha.self.1 a (.inl rfl)
    have c1 := ha.child (q := b) rfl
    have c2 := ha.self.1 c (.inr rfl)
    exact con_cost_step (w := (e + x) + (e + y) + (e + z)) (by omega) fun m s o _ ho =>
      spend_encloseC (sp h0 c0) (cs c1 (ih1 c1 m)) (sp h2 c2) s o ho
  | @sepOnce a b c x y z h0 h1 h2 ih0 ih1 ih2 =>
    intro ha n
    have c0 := ha.child (q := a) (.inl rfl)
    have c1 := ha.self.1 b rfl
    have c2 := ha.child (q := c) (.inr rfl)
    exact con_cost_step (w := (e + x) + (e + y) + (e + z)) (by omega) fun m s o _ ho =>
      spend_sepOnceC (cs c0 (ih0 c0 m)) (sp h1 c1) (cs c2 (ih2 c2 m)) s o ho
  | @opt q x h0 ih0 =>
    intro ha n
    have c0 := ha.child (q := q) rfl
    exact con_cost_step (w := (e + x)) (by omega) fun m s o _ ho =>
      spend_optC (cs c0 (ih0 c0 m)) s o ho
  | @map q f x h0 ih0 =>
    intro ha n
    have c0 := ha.child (q := q) rfl
    exact con_cost_step (w := (e + x)) (by omega) fun m s o _ ho =>
      spend_mapC (cs c0 (ih0 c0 m)) f s o ho
  | @pat q x hq _ =>
    intro ha n
    have c := ha.self.1 q rfl
    exact con_cost_step (w := e + x) (by omega) fun m s o _ ho => spend_invoke (leaf hq c s o ho)
  | @dthen q f x y hq hf ih1 ih2 =>
    intro ha n
    have c := ha.child (q := q) (.inl rfl)
    refine con_cost_step (w := (e + x) + (e + y)) (by omega) fun m s o hn ho =>
      spend_dthenC (cs c (ih1 c m)) (fun o v q' o' ho hq => ?_) s o ho
    have c2 := ha.child (q := q') (.inr ⟨_, _, _, _, hq⟩)
    have hd := ha.self.2 o v ho
    rw [hq] at hd
    exact ⟨hd.2, cs c2 (ih2 _ _ _ _ _ hq c2 m)⟩
  | @choice err items x _ ih =>
    intro ha n
    exact con_cost_step (w := items.length * (e + x)) (by omega) fun m s o _ ho => spend_choiceC (fun it hit => by
      have c := ha.child (q := it.1) ⟨it, hit, rfl⟩
      exact cs c (ih it hit c m)) err s o ho
  | @ltm err items x _ ih =>
    intro ha n
    exact con_cost_step (w := items.length * (e + x)) (by omega) fun m s o _ ho => spend_ltmC (fun it hit => by
      have c := ha.child (q := it.1) ⟨it, hit, rfl⟩
      exact cs c (ih it hit c m)) err s o ho
  | @repMost q r k x hr _ ih =>
    intro ha n
    have c := ha.child (q := q) rfl
    exact con_cost_step (w := (k + 1) * (e + x)) (by omega) fun m s o _ ho =>
      spend_repMostC (cs c (ih c m)) hr m s o ho
  | @rep q r x hq _ ih =>
    intro ha n
    have c := ha.child (q := q) rfl
    have := Nat.mul_le_mul_right (e + x) (show blen d + 1 ≤ L + 1 by omega)
    exact con_cost_step (w := (blen d + 1) * (e + x)) (by omega) fun m s o _ ho =>
      spend_repC (cs c (ih c m)) (con_advances (hc q hq)) r m s o ho
  | @rep2 q m' k x _ ih =>
    intro ha n
    have c := ha.child (q := q) rfl
    exact con_cost_step (w := (k + 2) * (e + x)) (by omega) fun m s o _ ho =>
      spend_rep2C (cs c (ih c m)) m' k m s o ho
  | @collect q m' x hq _ ih =>
    intro ha n
    have c := ha.child (q := q) rfl
    have := Nat.mul_le_mul_right (e + x) (show blen d + 1 ≤ L + 1 by omega)
    exact con_cost_step (w := (blen d + 1) * (e + x)) (by omega) fun m s o _ ho =>
      spend_collectC (cs c (ih c m)) (con_advances (hc q hq)) m' m s o ho
  | @sep q s' skip m' x y hq _ hs ih1 ih2 =>
    intro ha n
    have c1 := ha.child (q := q) rfl
    have c2 := ha.self.1 s' rfl
    have := Nat.mul_le_mul_right (e + x + (e + y)) (show blen d + 1 ≤ L + 1 by omega)
    exact con_cost_step (w := (blen d + 1) * (e + x + (e + y))) (by omega) fun m s o _ ho =>
      spend_sepC (cs c1 (ih1 c1 m)) (sp hs c2)
        (hq.imp (fun h => con_advances (hc q h)) (fun h => mat_advances (he s' h d))) skip m' m s o ho
  | @sepCollect q s' skip m' x y hq _ hs ih1 ih2 =>
    intro ha n
    have c1 := ha.child (q := q) rfl
    have c2 := ha.self.1 s' rfl
    have := Nat.mul_le_mul_right (e + x + (e + y)) (show blen d + 2 ≤ L + 2 by omega)
    exact con_cost_step (w := (blen d + 2) * (e + x + (e + y))) (by omega) fun m s o _ ho =>
      spend_sepCollectC (cs c1 (ih1 c1 m)) (sp hs c2)
        (hq.imp (fun h => con_advances (hc q h)) (fun h => mat_advances (he s' h d))) skip m' m s o ho
  | @sep2 q s' skip m' k x y _ hs ih1 ih2 =>
    intro ha n
    have c1 := ha.child (q := q) rfl
    have c2 := ha.self.1 s' rfl
    exact con_cost_step (w := (k + 2) * (e + x + (e + y))) (by omega) fun m s o _ ho =>
      spend_sep2C (cs c1 (ih1 c1 m)) (sp hs c2) skip m' k m s o ho
  | @cell i q x hi _ ih =>
    intro ha n
    have c := ha.child (q := q) hi
    refine con_cost_step (w := x) (by omega) fun m s o _ ho => ?_
    simp only [impConStep, hi]
    exact ih c m s o ho
  | @unset i hi =>
    intro ha n
    refine con_cost_step (w := 0) (by omega) fun m s o _ ho => ?_
    simp only [impConStep, hi]
    exact WP.pure_ (by omega)

end Neure
