import Verif.DepthSpec
import Verif.Refactor
import Verif.CtorTerm
/-!
# Bounded call stacks: lemmas
-/

namespace Neure.Depth

set_option linter.unusedSectionVars false

variable {ι β σ : Type} [Item ι] {G : Rules ι β} {H : Handler ι β σ} {pol : Option (Pat ι β)}
  {d : List ι}

/-! ## Without a bound on the loops -/

/-- `parseAt` without a bound on the rounds of loops. -/
noncomputable def parseLAt (G : Rules ι β) :
    Nat → Option (Pat ι β) → List ι → Pat ι β → Nat → Option (Res Span)
  | 0 => fun _ _ _ _ => none
  | k + 1 => fun pol d p o =>
    stepL G (matWith (parseLAt G k) pol) (parseLAt G k pol d) d p o

/-- `conAt` without a bound on the rounds of loops. -/
noncomputable def conLAt (G : Rules ι β) (H : Handler ι β σ) :
    Nat → Option (Pat ι β) → List ι → Pat ι β → σ → Nat → Option (CRes σ (Val β))
  | 0 => fun _ _ _ _ _ => none
  | k + 1 => fun pol d p st o =>
    conStepL G H (matWith (parseLAt G k) pol d) (matWith (parseLAt G k) pol d p o)
      (conLAt G H k pol d) d p st o

theorem approx_parseAt (G : Rules ι β) (k : Nat) (pol : Option (Pat ι β)) (d : List ι)
    (p : Pat ι β) (o : Nat) :
    Approx (fun m => parseAt G m k pol d p o) (parseLAt G k pol d p o) := by
  induction k generalizing pol d p o with
  | zero => exact approx_const _
  | succ k ih =>
    exact approx_step (fun d p o => approx_matWith ih pol d p o) (fun p o => ih pol d p o) d p o

theorem runsIn_iff {k : Nat} {p : Pat ι β} {o : Nat} {r : Res Span} :
    RunsIn G k pol d p o r ↔ matWith (parseLAt G k) pol d p o = some r := by
  have := approx_matWith (approx_parseAt G k) pol d p o
  rw [← this.2, lim_eq_some this.1]; rfl

theorem approx_conAt (G : Rules ι β) (H : Handler ι β σ) (k : Nat) (pol : Option (Pat ι β))
    (d : List ι) (p : Pat ι β) (st : σ) (o : Nat) :
    Approx (fun m => conAt G H m k pol d p st o) (conLAt G H k pol d p st o) := by
  induction k generalizing p st o with
  | zero => exact approx_const _
  | succ k ih =>
    exact approx_conStep (fun p o => approx_matWith (approx_parseAt G k) pol d p o)
      (approx_matWith (approx_parseAt G k) pol d p o) (fun p st o => ih p st o) d p st o

theorem constructsIn_iff {k : Nat} {p : Pat ι β} {st : σ} {o : Nat} {r : CRes σ (Val β)} :
    ConstructsIn G H k pol d p st o r ↔ conLAt G H k pol d p st o = some r := by
  have := approx_conAt G H k pol d p st o
  rw [← this.2, lim_eq_some this.1]; rfl

/-! ## Monotonicity -/

theorem lim_le_lim {γ : Type} {f g : Nat → Option γ} (hf : Mono f) (hg : Mono g)
    (h : ∀ n, Le (f n) (g n)) : Le (lim f) (lim g) := by
  intro x hx
  obtain ⟨n, hn⟩ := (lim_eq_some hf x).mp hx
  exact (lim_eq_some hg x).mpr ⟨n, h n x hn⟩

/-- A step is monotone in what it is told about the components of `p`. -/
theorem stepL_le {mt mt' : List ι → Pat ι β → Nat → Option (Res Span)}
    {pr pr' : Pat ι β → Nat → Option (Res Span)} {p : Pat ι β}
    (hm : ∀ d q o, Child G q p → Le (mt d q o) (mt' d q o))
    (hp : ∀ q o, Child G q p → Le (pr q o) (pr' q o)) (o : Nat) :
    Le (stepL G mt pr d p o) (stepL G mt' pr' d p o) := by
  have c : ∀ (mt : List ι → Pat ι β → Nat → Option (Res Span)) (pr : Pat ι β → Nat → Option (Res Span)),
      Mono fun n => step G n mt pr d p o := fun mt pr =>
    (approx_step (mt := fun _ => mt) (pr := fun _ => pr) (fun _ _ _ => approx_const _)
      (fun _ _ => approx_const _) d p o).1
  refine lim_le_lim (c _ _) (c _ _) fun n => ?_
  refine step_rel (R := fun q q' => q = q' ∧ Child G q p) ?_ ?_ n d
    (sameShape_self (fun q hq => ⟨rfl, hq⟩) fun _ _ => rfl) o
  · rintro d q _ o ⟨rfl, hq⟩; exact hm d q o hq
  · rintro q _ o ⟨rfl, hq⟩; exact hp q o hq

theorem conStepL_le {mt mt' : Pat ι β → Nat → Option (Res Span)} {leaf leaf' : Option (Res Span)}
    {cn cn' : Pat ι β → σ → Nat → Option (CRes σ (Val β))} {p : Pat ι β}
    (hm : ∀ q o, Child G q p → Le (mt q o) (mt' q o)) (hl : Le leaf leaf')
    (hc : ∀ q st o, Child G q p → Le (cn q st o) (cn' q st o)) (st : σ) (o : Nat) :
    Le (conStepL G H mt leaf cn d p st o) (conStepL G H mt' leaf' cn' d p st o) := by
  have c : ∀ (mt : Pat ι β → Nat → Option (Res Span)) (leaf : Option (Res Span))
      (cn : Pat ι β → σ → Nat → Option (CRes σ (Val β))),
      Mono fun n => conStep G H n mt leaf cn d p st o := fun mt leaf cn =>
    (approx_conStep (mt := fun _ => mt) (leaf := fun _ => leaf) (cn := fun _ => cn)
      (fun _ _ => approx_const _) (approx_const _) (fun _ _ _ => approx_const _) d p st o).1
  refine lim_le_lim (c _ _ _) (c _ _ _) fun n => ?_
  refine conStep_rel (R := fun q q' => q = q' ∧ Child G q p) ?_ hl ?_ n d
    (sameShape_self (fun q hq => ⟨rfl, hq⟩) fun _ _ => rfl) st o
  · rintro q _ o ⟨rfl, hq⟩; exact hm q o hq
  · rintro q _ st o ⟨rfl, hq⟩; exact hc q st o hq

/-- The bounded evaluator never gives a wrong answer. -/
theorem parseLAt_le (G : Rules ι β) (k : Nat) (pol : Option (Pat ι β)) (d : List ι) (p : Pat ι β)
    (o : Nat) : Le (parseLAt G k pol d p o) (parseL G pol d p o) := by
  induction k generalizing pol d p o with
  | zero => exact Le.none _
  | succ k ih =>
    rw [parseL_eq]
    exact stepL_le (fun d q o _ => matWith_le ih pol d q o) (fun q o _ => ih pol d q o) o

theorem conLAt_le (G : Rules ι β) (H : Handler ι β σ) (k : Nat) (pol : Option (Pat ι β)) (d : List ι)
    (p : Pat ι β) (st : σ) (o : Nat) : Le (conLAt G H k pol d p st o) (conL G H pol d p st o) := by
  induction k generalizing p st o with
  | zero => exact Le.none _
  | succ k ih =>
    rw [conL_eq]
    exact conStepL_le (fun q o _ => matWith_le (parseLAt_le G k) pol d q o)
      (matWith_le (parseLAt_le G k) pol d p o) (fun q st o _ => ih q st o) st o

theorem parseLAt_succ (G : Rules ι β) (k : Nat) (pol : Option (Pat ι β)) (d : List ι) (p : Pat ι β)
    (o : Nat) : Le (parseLAt G k pol d p o) (parseLAt G (k + 1) pol d p o) := by
  induction k generalizing pol d p o with
  | zero => exact Le.none _
  | succ k ih =>
    exact stepL_le (fun d q o _ => matWith_le ih pol d q o) (fun q o _ => ih pol d q o) o

/-- A deeper stack never changes an answer. -/
theorem parseLAt_mono {G : Rules ι β} {k k' : Nat} (h : k ≤ k') (pol : Option (Pat ι β)) (d : List ι)
    (p : Pat ι β) (o : Nat) : Le (parseLAt G k pol d p o) (parseLAt G k' pol d p o) := by
  induction h with
  | refl => exact Le.refl _
  | step _ ih => exact Le.trans ih (parseLAt_succ _ _ _ _ _ _)

theorem conLAt_succ (G : Rules ι β) (H : Handler ι β σ) (k : Nat) (pol : Option (Pat ι β))
    (d : List ι) (p : Pat ι β) (st : σ) (o : Nat) :
    Le (conLAt G H k pol d p st o) (conLAt G H (k + 1) pol d p st o) := by
  induction k generalizing p st o with
  | zero => exact Le.none _
  | succ k ih =>
    exact conStepL_le (fun q o _ => matWith_le (parseLAt_succ G k) pol d q o)
      (matWith_le (parseLAt_succ G k) pol d p o) (fun q st o _ => ih q st o) st o

theorem conLAt_mono {G : Rules ι β} {H : Handler ι β σ} {k k' : Nat} (h : k ≤ k')
    (pol : Option (Pat ι β)) (d : List ι) (p : Pat ι β) (st : σ) (o : Nat) :
    Le (conLAt G H k pol d p st o) (conLAt G H k' pol d p st o) := by
  induction h with
  | refl => exact Le.refl _
  | step _ ih => exact Le.trans ih (conLAt_succ _ _ _ _ _ _ _ _)

/-! ## One fuel for both -/

theorem parse_le_parseAt {m n : Nat} (hm : n ≤ m) (pol : Option (Pat ι β)) (d : List ι) (p : Pat ι β)
    (o : Nat) : Le (parse G n pol d p o) (parseAt G m n pol d p o) := by
  induction n generalizing pol d p o with
  | zero => exact Le.none _
  | succ n ih =>
    have ih := ih (by omega)
    have mono := (approx_step (G := G) (mt := fun _ => matWith (parseAt G m n) pol)
      (pr := fun _ => parseAt G m n pol d) (fun _ _ _ => approx_const _)
      (fun _ _ => approx_const _) d p o).1 n m (by omega)
    refine Le.trans ?_ mono
    refine step_rel (R := Eq) ?_ ?_ n d (sameShape_self (fun _ _ => rfl) fun _ _ => rfl) o
    · rintro d q _ o rfl; exact matWith_le ih pol d q o
    · rintro q _ o rfl; exact ih pol d q o

theorem con_le_conAt {m n : Nat} (hm : n + 1 ≤ m) (p : Pat ι β) (st : σ) (o : Nat) :
    Le (con G H n pol d p st o) (conAt G H m (n + 1) pol d p st o) := by
  induction n generalizing p st o with
  | zero => exact Le.none _
  | succ n ih =>
    have ih := ih (by omega)
    have pl := fun p o => matWith_le (parse_le_parseAt (G := G) (show n + 1 ≤ m by omega)) pol d p o
    have mono := (approx_conStep (G := G) (H := H) (mt := fun _ => matWith (parseAt G m (n + 1)) pol d)
      (leaf := fun _ => matWith (parseAt G m (n + 1)) pol d p o)
      (cn := fun _ => conAt G H m (n + 1) pol d) (fun _ _ => approx_const _) (approx_const _)
      (fun _ _ _ => approx_const _) d p st o).1 n m (by omega)
    refine Le.trans ?_ mono
    refine conStep_rel (R := Eq) ?_ (pl p o) ?_ n d (sameShape_self (fun _ _ => rfl) fun _ _ => rfl) st o
    · rintro q _ o rfl; exact (tryMat_mono G pol d q o n (n + 1) (by omega)).trans (pl q o)
    · rintro q _ st o rfl; exact ih q st o

/-! ## Patterns of bounded height -/

theorem parseL_below_none {k : Nat} {p : Pat ι β} (h : Below G k p) (d : List ι) (o : Nat) :
    Le (parseL G none d p o) (parseLAt G k none d p o) := by
  induction k generalizing p d o with
  | zero => exact h.elim
  | succ k ih =>
    rw [parseL_eq]
    exact stepL_le (fun d q o hq => ih (h q hq) d o) (fun q o hq => ih (h q hq) d o) o

theorem parseL_below {k e : Nat} {p : Pat ι β} (h : Below G k p)
    (he : ∀ w, pol = some w → Below G e w) (d : List ι) (o : Nat) :
    Le (parseL G pol d p o) (parseLAt G (k + e) pol d p o) := by
  induction k generalizing p d o with
  | zero => exact h.elim
  | succ k ih =>
    rw [parseL_eq, show k + 1 + e = (k + e) + 1 by omega]
    refine stepL_le (fun d q o hq => ?_) (fun q o hq => ih (h q hq) d o) o
    cases pol with
    | none => exact ih (h q hq) d o
    | some w =>
      exact caseR_le ((parseL_below_none (he w rfl) d o).trans (parseLAt_mono (by omega) _ _ _ _))
        (fun _ _ => ih (h q hq) d _) (fun _ _ => Le.refl _)

theorem matL_below {k e : Nat} {p : Pat ι β} (h : Below G k p)
    (he : ∀ w, pol = some w → Below G e w) (d : List ι) (o : Nat) :
    Le (matL G pol d p o) (matWith (parseLAt G (k + e)) pol d p o) := by
  cases pol with
  | none => exact parseL_below h he d o
  | some w =>
    exact caseR_le ((parseL_below_none (he w rfl) d o).trans (parseLAt_mono (by omega) _ _ _ _))
      (fun _ _ => parseL_below h he d _) (fun _ _ => Le.refl _)

theorem conL_below {k e : Nat} {p : Pat ι β} (h : Below G k p)
    (he : ∀ w, pol = some w → Below G e w) (st : σ) (o : Nat) :
    Le (conL G H pol d p st o) (conLAt G H (k + 1 + e) pol d p st o) := by
  induction k generalizing p st o with
  | zero => exact h.elim
  | succ k ih =>
    rw [conL_eq, show k + 1 + 1 + e = (k + 1 + e) + 1 by omega]
    refine conStepL_le (fun q o hq => ?_) (matL_below h he d o) (fun q st o hq => ih (h q hq) st o) st o
    exact (matL_below (h q hq) he d o).trans (matWith_le (parseLAt_mono (by omega)) pol d q o)

/-! ## Recursion that makes progress -/

theorem matLAt_ne {k e : Nat} {p : Pat ι β} {o R : Nat} (hpol : PolicyReturns G pol)
    (he : ∀ w, pol = some w → Below G e w) (hk : e ≤ k) (ho : o ≤ blen d) (hR : blen d - o ≤ R)
    (h : ∀ o', o' ≤ blen d → blen d - o' ≤ R → parseLAt G k pol d p o' ≠ none) :
    matWith (parseLAt G k) pol d p o ≠ none := by
  cases pol with
  | none => exact h o ho hR
  | some w =>
    obtain ⟨h1, h2⟩ := hpol w rfl
    refine caseR_ne ?_ (fun s o' h3 => ?_) (fun _ _ _ => by simp)
    · obtain ⟨r, hr⟩ := h1 d o ho
      rw [parses_iff] at hr
      rw [(parseL_below_none (he w rfl) d o).trans (parseLAt_mono hk _ _ _ _) _ hr]; simp
    · have := h2 d o s o' ho (runs_iff.mpr (parseLAt_le _ _ _ _ _ _ _ h3))
      exact h o' this.2 (by omega)

/-- Every reachable pattern moves forward and eats in its unbounded loops, and what it
may try before eating has a smaller rank. -/
def Ranked (G : Rules ι β) (pol : Option (Pat ι β)) (L : Nat) (rank : Pat ι β → Nat) (p : Pat ι β) :
    Prop :=
  All G (fun q => Forward G pol q ∧ LoopsEat G pol q ∧ rank q < L ∧
    ∀ q', First G pol q' q → rank q' < rank q) p

theorem parseLAt_ranked {L e : Nat} {rank : Pat ι β → Nat} (hpol : PolicyReturns G pol)
    (he : ∀ w, pol = some w → Below G e w) (R : Nat) (p : Pat ι β) (h : Ranked G pol L rank p) :
    ∀ d o, o ≤ blen d → blen d - o ≤ R → parseLAt G (R * L + rank p + 1 + e) pol d p o ≠ none := by
  induction R using Nat.strongRecOn generalizing p with
  | _ R ihR =>
    generalize hr : rank p = r
    induction r using Nat.strongRecOn generalizing p with
    | _ r ih =>
      intro d o ho hR
      have first : ∀ q, First G pol q p → ∀ d o, o ≤ blen d → blen d - o ≤ R →
          parseLAt G (R * L + r + e) pol d q o ≠ none := by
        intro q hq d o ho hR
        have hlt := h.self.2.2.2 q hq
        have := ih (rank q) (by omega) q (h.child hq.child) rfl d o ho hR
        obtain ⟨x, hx⟩ := Option.ne_none_iff_exists'.mp this
        rw [parseLAt_mono (show R * L + rank q + 1 + e ≤ R * L + r + e by omega) pol d q o x hx]
        simp
      rw [show R * L + r + 1 + e = (R * L + r + e) + 1 by omega]
      refine stepL_returns (pol := pol) (fun d q o => matWith_le (parseLAt_le G _) pol d q o)
        (fun q hq => (h.child hq).self.1) h.self.2.1
        (fun q hq d o ho hR => matLAt_ne hpol he (by omega) ho hR fun o' ho' hR' => first q hq d o' ho' hR')
        (fun q hq d o ho hR => ?_) d o ho hR (fun q hq => first q hq d o ho hR)
      refine matLAt_ne hpol he (by omega) ho (Nat.le_refl _) fun o' ho' hR' => ?_
      have := ihR (blen d - o) hR q (h.child hq) d o' ho' hR'
      obtain ⟨x, hx⟩ := Option.ne_none_iff_exists'.mp this
      have hL := (h.child hq).self.2.2.1
      have hmul : (blen d - o) * L + L ≤ R * L := by
        rw [← Nat.succ_mul]; exact Nat.mul_le_mul_right _ hR
      rw [parseLAt_mono (show (blen d - o) * L + rank q + 1 + e ≤ R * L + r + e by omega) pol d q o' x hx]
      simp

/-- The same for constructing. -/
def CRanked (G : Rules ι β) (H : Handler ι β σ) (pol : Option (Pat ι β)) (d : List ι) (e L : Nat)
    (rank : Pat ι β → Nat) (p : Pat ι β) : Prop :=
  CAll G (fun q => CForward G pol d q ∧
    (∀ m, MatchPart m q → ∀ o, o ≤ blen d → ∃ r, RunsIn G e pol d m o r) ∧
    CLoopsEat G H pol d q ∧ rank q < L ∧ ∀ q', CFirst G H pol d q' q → rank q' < rank q) p

theorem conLAt_ranked {L e : Nat} {rank : Pat ι β → Nat} (R : Nat) (p : Pat ι β)
    (h : CRanked G H pol d e L rank p) :
    ∀ st o, o ≤ blen d → blen d - o ≤ R → conLAt G H (R * L + rank p + 1 + e) pol d p st o ≠ none := by
  induction R using Nat.strongRecOn generalizing p with
  | _ R ihR =>
    generalize hr : rank p = r
    induction r using Nat.strongRecOn generalizing p with
    | _ r ih =>
      intro st o ho hR
      have part : ∀ m, MatchPart m p → ∀ o, o ≤ blen d →
          matWith (parseLAt G (R * L + r + e)) pol d m o ≠ none := by
        intro m hm o ho
        obtain ⟨x, hx⟩ := h.self.2.1 m hm o ho
        rw [runsIn_iff] at hx
        rw [matWith_le (parseLAt_mono (show e ≤ R * L + r + e by omega)) pol d m o x hx]; simp
      rw [show R * L + r + 1 + e = (R * L + r + e) + 1 by omega]
      refine conStepL_returns (pol := pol) (fun q o => matWith_le (parseLAt_le G _) pol d q o)
        (fun q st o => conLAt_le _ _ _ _ _ _ _ _) (h.mono fun _ h => h.1)
        (fun m hm _ => part m hm) (fun hl => part p ?_ o ho) h.self.2.2.1
        (fun q hq st o ho hR => ?_) (fun q hq st o ho hR => ?_) st o ho hR
      · cases p <;> first | exact hl.elim | exact rfl
      · have hlt := h.self.2.2.2.2 q hq
        have := ih (rank q) (by omega) q (h.child hq.child) rfl st o ho hR
        obtain ⟨x, hx⟩ := Option.ne_none_iff_exists'.mp this
        rw [conLAt_mono (show R * L + rank q + 1 + e ≤ R * L + r + e by omega) pol d q st o x hx]
        simp
      · have := ihR (blen d - o) hR q (h.child hq) st o ho (Nat.le_refl _)
        obtain ⟨x, hx⟩ := Option.ne_none_iff_exists'.mp this
        have hL := (h.child hq).self.2.2.2.1
        have hmul : (blen d - o) * L + L ≤ R * L := by
          rw [← Nat.succ_mul]; exact Nat.mul_le_mul_right _ hR
        rw [conLAt_mono (show (blen d - o) * L + rank q + 1 + e ≤ R * L + r + e by omega) pol d q st o x hx]
        simp

end Neure.Depth
