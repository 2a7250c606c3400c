import Verif.Inv
/-!
# The core invariants of matching, by induction over fuel

* `keeps_inv`  — a failing match restores the offset (plain context);
* `exact_inv`  — a successful match's span starts at the old offset and ends at
  the new one (plain context);
* `safe_inv`   — no panics, forward movement, bounds (any policy);
* `bound_inv`  — character boundaries.
-/

namespace Neure

set_option linter.unusedSectionVars false

variable {ι β : Type} [Item ι]

/-! ## Failing matches restore the offset -/

/-- Post-condition "an error leaves the offset at `o`". -/
def ErrAt (o : Nat) : Res Span → Prop
  | .err _ o' => o' = o
  | _ => True

theorem LeafPost.errAt {d : List ι} {o : Nat} {tp : Prop} {r : Res Span}
    (h : LeafPost d o tp r) : ErrAt o r := by
  cases r <;> simp_all [LeafPost, ErrAt]

theorem sat_true {α : Type} (r : Option α) : Sat r fun _ => True := fun _ _ => trivial

theorem finish_err {ok : Nat → Bool} {e : Error} {beg cnt : Nat} {t : Span} {o : Nat} :
    Sat (finish ok e beg cnt t o) (ErrAt beg) := by
  unfold finish; split <;> exact Sat.some (by simp [ErrAt])

theorem keeps_inv (G : Rules ι β) (n : Nat) (d : List ι) (p : Pat ι β) (o : Nat)
    (h : All G Restores p) : Sat (parse G n none d p o) (ErrAt o) := by
  induction n generalizing d p o with
  | zero => exact Sat.none
  | succ n ih =>
    have ihc : ∀ q o, Child G q p → Sat (matWith (parse G n) none d q o) (ErrAt o) :=
      fun q o hc => ih d q o (h.child hc)
    have T : ∀ q o, Sat (matWith (parse G n) none d q o) (fun _ => True) := fun _ _ => sat_true _
    have E : ∀ (e : Error), Sat (some (Res.err e o : Res Span)) (ErrAt o) := fun e => Sat.some rfl
    have K : ∀ (s : Span) (o' : Nat), Sat (some (Res.ok s o')) (ErrAt o) := fun _ _ => Sat.some trivial
    have loopR : ∀ (q : Pat ι β) (more : Nat → Bool) (ok : Nat → Bool) (e : Error),
        Sat (repLoop (matWith (parse G n) none d) q more (finish ok e o) n 0 ⟨o, 0⟩ o) (ErrAt o) := by
      intro q more ok e
      refine sat_repLoop (fun _ _ _ => True) (fun cnt t o' _ _ => ?_) (fun _ _ _ _ _ => finish_err)
        _ _ _ _ trivial
      intro r _
      cases r <;> simp [ErrAt]
      exact finish_err
    have loopS : ∀ (q s : Pat ι β) (skip : Bool) (more : Nat → Bool) (ok : Nat → Bool) (e : Error),
        Sat (sepLoop (matWith (parse G n) none d) q s skip more (finish ok e o) n 0 ⟨o, 0⟩ o)
          (ErrAt o) := by
      intro q s skip more ok e
      refine sat_sepLoop (fun _ _ _ => True) (fun cnt t o' _ _ => ?_) (fun _ _ _ _ _ => finish_err)
        _ _ _ _ trivial
      intro r _
      cases r <;> simp only [ErrAt]
      · intro r' _
        cases r' <;> simp
        exact ⟨fun _ _ _ => finish_err, fun _ => finish_err⟩
      · exact finish_err
    simp only [parse]
    cases p <;> simp only [step]
    case empty => exact K _ _
    case fail => exact E _
    case start => exact sat_ite (fun _ => K _ _) (fun _ => E _)
    case anchorEnd => exact sat_ite (fun _ => K _ _) (fun _ => E _)
    case consume =>
      exact sat_remK (fun _ => sat_ite (fun _ => K _ _) (fun _ => E _)) (fun _ => trivial)
    case consumeAll => exact K _ _
    case lit => exact (leaf_lit _ _ _ True).imp fun _ => LeafPost.errAt
    case native f =>
      intro r hr
      have := h.self
      simp only [Restores, Option.some.injEq] at this hr
      cases r with
      | err e o' => exact this d o e o' hr
      | _ => trivial
    case once => exact (leaf_once _ _ _ _ _).imp fun _ => LeafPost.errAt
    case many1 => exact (leaf_many1 _ _ _ _ _).imp fun _ => LeafPost.errAt
    case optU => exact (leaf_optU _ _ _ _ _).imp fun _ => LeafPost.errAt
    case many0 => exact (leaf_many0 _ _ _ _ _).imp fun _ => LeafPost.errAt
    case between => exact (leaf_between _ _ _ _ _ _ _).imp fun _ => LeafPost.errAt
    case times => exact (leaf_times _ _ _ _ _ _).imp fun _ => LeafPost.errAt
    case thenU => exact (leaf_thenU _ _ _ _ _ _).imp fun _ => LeafPost.errAt
    case assert =>
      exact sat_caseR (T _ _) (fun _ _ _ => sat_ite (fun _ => K _ _) (fun _ => E _))
        (fun _ _ _ => sat_ite (fun _ => E _) (fun _ => K _ _)) (fun _ => trivial)
    case thn =>
      exact sat_caseR (T _ _) (fun _ _ _ => sat_caseR (T _ _)
        (fun _ _ _ => sat_addK (fun _ _ => K _ _) (fun _ => trivial)) (fun _ _ _ => E _)
        (fun _ => trivial)) (fun _ _ _ => E _) (fun _ => trivial)
    case pre =>
      exact sat_caseR (T _ _) (fun _ _ _ => sat_caseR (T _ _)
        (fun _ _ _ => sat_addK (fun _ _ => K _ _) (fun _ => trivial)) (fun _ _ _ => E _)
        (fun _ => trivial)) (fun _ _ _ => E _) (fun _ => trivial)
    case suf =>
      exact sat_caseR (T _ _) (fun _ _ _ => sat_caseR (T _ _)
        (fun _ _ _ => sat_addK (fun _ _ => K _ _) (fun _ => trivial)) (fun _ _ _ => E _)
        (fun _ => trivial)) (fun _ _ _ => E _) (fun _ => trivial)
    case ifThen =>
      exact sat_caseR (T _ _) (fun _ _ _ => sat_caseR (T _ _)
        (fun _ _ _ => sat_addK (fun _ _ => sat_caseR (T _ _)
          (fun _ _ _ => sat_addK (fun _ _ => K _ _) (fun _ => trivial)) (fun _ _ _ => E _)
          (fun _ => trivial)) (fun _ => trivial)) (fun _ _ _ => K _ _)
        (fun _ => trivial)) (fun _ _ _ => E _) (fun _ => trivial)
    case enclose =>
      exact sat_caseR (T _ _) (fun _ _ _ => sat_caseR (T _ _)
        (fun _ _ _ => sat_addK (fun _ _ => sat_caseR (T _ _)
          (fun _ _ _ => sat_addK (fun _ _ => K _ _) (fun _ => trivial)) (fun _ _ _ => E _)
          (fun _ => trivial)) (fun _ => trivial)) (fun _ _ _ => E _)
        (fun _ => trivial)) (fun _ _ _ => E _) (fun _ => trivial)
    case sepOnce =>
      exact sat_caseR (T _ _) (fun _ _ _ => sat_addK (fun _ _ => sat_caseR (T _ _)
        (fun _ _ _ => sat_addK (fun _ _ => sat_caseR (T _ _)
          (fun _ _ _ => sat_addK (fun _ _ => K _ _) (fun _ => trivial)) (fun _ _ _ => E _)
          (fun _ => trivial)) (fun _ => trivial)) (fun _ _ _ => E _)
        (fun _ => trivial)) (fun _ => trivial)) (fun _ _ _ => E _) (fun _ => trivial)
    case or =>
      exact sat_caseR (T _ _) (fun _ _ _ => K _ _) (fun _ _ _ => sat_caseR (T _ _)
        (fun _ _ _ => K _ _) (fun _ _ _ => E _) (fun _ => trivial)) (fun _ => trivial)
    case longest =>
      exact sat_caseR (T _ _) (fun _ _ _ => sat_caseR (T _ _)
        (fun _ _ _ => sat_ite (fun _ => K _ _) (fun _ => K _ _)) (fun _ _ _ => K _ _)
        (fun _ => trivial)) (fun _ _ _ => sat_caseR (T _ _) (fun _ _ _ => K _ _)
        (fun _ _ _ => E _) (fun _ => trivial)) (fun _ => trivial)
    case opt => exact sat_caseR (T _ _) (fun _ _ _ => K _ _) (fun _ _ _ => K _ _) (fun _ => trivial)
    case choice e items =>
      refine sat_choiceLoop items (fun it _ r _ => ?_) rfl
      cases r <;> simp [ErrAt]
    case ltm e items =>
      refine sat_ltmLoop (fun best o' => best = none → o' = o) items ?_
        (fun _ _ _ => trivial) (fun o' h => h rfl) none o (fun _ => rfl)
      intro it hit best o' _ r hr
      have := ihc it.1 o ⟨it, hit, rfl⟩ r hr
      cases r with
      | ok s o'' =>
        intro hn
        cases best <;> simp [better] at hn
        split at hn <;> cases hn
      | err e o'' => exact fun _ => this
      | panic => trivial
    case rep => exact loopR _ _ _ _
    case rep2 => exact loopR _ _ _ _
    case collect => exact loopR _ _ _ _
    case sep => exact loopS _ _ _ _ _ _
    case sep2 => exact loopS _ _ _ _ _ _
    case sepCollect => exact loopS _ _ _ _ _ _
    case branch =>
      exact sat_caseO (sat_true _) (fun _ _ => sat_caseR (T _ _) (fun _ _ _ => K _ _)
        (fun _ _ _ => E _) (fun _ => trivial)) (fun _ _ => E _) (fun _ => trivial)
    case map => exact ihc _ _ rfl
    case pat => exact ihc _ _ rfl
    case build q f =>
      have hf := h.self
      simp only [Restores] at hf
      refine sat_caseR (T _ _) (fun s o1 _ => ?_) (fun _ _ _ => E _) (fun _ => trivial)
      refine sat_caseR (P := fun x => x = f d o1 s) (Sat.some rfl) (fun _ _ _ => ?_)
        (fun e o2 hh => absurd hh.symm (hf _ _ _ _ _)) (fun _ => trivial)
      exact sat_caseR (T _ _) (fun _ _ _ => K _ _) (fun _ _ _ => E _) (fun _ => trivial)
    case dthen => exact Sat.some trivial
    case cell i =>
      split
      · exact E _
      · next q hq => exact ih d q o (h.child hq)

/-! ## Span and offset agree on success -/

/-- Post-condition: span from the old to the new offset; errors restore. -/
def ExactAt (o : Nat) : Res Span → Prop
  | .ok s o' => s.beg = o ∧ o' = s.beg + s.len
  | .err _ o' => o' = o
  | .panic => True

theorem LeafPost.exactAt {d : List ι} {o : Nat} {tp : Prop} {r : Res Span}
    (h : LeafPost d o tp r) : ExactAt o r := by
  cases r <;> simp_all [LeafPost, ExactAt]

theorem finish_exact {ok : Nat → Bool} {e : Error} {beg cnt : Nat} {t : Span} {o : Nat}
    (h : t.beg = beg ∧ t.stop = o) : Sat (finish ok e beg cnt t o) (ExactAt beg) := by
  unfold finish; split
  · exact Sat.some ⟨h.1, by rw [← h.2]; rfl⟩
  · exact Sat.some rfl

theorem exact_inv (G : Rules ι β) (n : Nat) (d : List ι) (p : Pat ι β) (o : Nat)
    (h : All G Tidy p) : Sat (parse G n none d p o) (ExactAt o) := by
  induction n generalizing d p o with
  | zero => exact Sat.none
  | succ n ih =>
    have I : ∀ q o, Child G q p → Sat (matWith (parse G n) none d q o) (ExactAt o) :=
      fun q o hc => ih d q o (h.child hc)
    have E : ∀ (e : Error), Sat (some (Res.err e o : Res Span)) (ExactAt o) := fun e => Sat.some rfl
    have K : ∀ (s : Span) (o' : Nat), s.beg = o ∧ s.stop = o' → Sat (some (Res.ok s o')) (ExactAt o) :=
      fun s o' h => Sat.some ⟨h.1, by rw [← h.2]; rfl⟩
    have P : True → ExactAt o .panic := id
    have add2 : ∀ (s1 s2 s : Span) (o1 o2 : Nat), ExactAt o (.ok s1 o1) → ExactAt o1 (.ok s2 o2) →
        s1.addAssign s2 = some s → ExactAt o (.ok s o2) := by
      intro s1 s2 s o1 o2 h1 h2 ha
      rw [addAssign_eq] at ha
      simp only [ExactAt, Span.stop] at *
      omega
    have loopR : ∀ (q : Pat ι β) (more : Nat → Bool) (ok : Nat → Bool) (e : Error), Child G q p →
        Sat (repLoop (matWith (parse G n) none d) q more (finish ok e o) n 0 ⟨o, 0⟩ o)
          (ExactAt o) := by
      intro q more ok e hc
      refine sat_repLoop (fun _ t o' => t.beg = o ∧ t.stop = o') (fun cnt t o' hJ _ => ?_)
        (fun _ _ _ h _ => finish_exact h) _ _ _ _ ⟨rfl, rfl⟩
      refine (I q o' hc).imp fun r hr => ?_
      cases r with
      | ok s o'' =>
        refine ⟨fun t' ht => ?_, fun _ => trivial⟩
        rw [addAssign_eq] at ht
        simp only [ExactAt, Span.stop] at *
        omega
      | err e o'' => simp only [ExactAt] at hr; subst hr; exact finish_exact hJ
      | panic => trivial
    have loopS : ∀ (q s : Pat ι β) (more : Nat → Bool) (ok : Nat → Bool) (e : Error),
        Child G q p → Child G s p →
        Sat (sepLoop (matWith (parse G n) none d) q s true more (finish ok e o) n 0 ⟨o, 0⟩ o)
          (ExactAt o) := by
      intro q s more ok e hc hc'
      refine sat_sepLoop (fun _ t o' => t.beg = o ∧ t.stop = o') (fun cnt t o' hJ _ => ?_)
        (fun _ _ _ h _ => finish_exact h) _ _ _ _ ⟨rfl, rfl⟩
      refine (I q o' hc).imp fun r hr => ?_
      cases r with
      | ok ps o1 =>
        refine (I s o1 hc').imp fun r' hr' => ?_
        cases r' with
        | ok ss o2 =>
          refine ⟨fun t1 t2 h1 h2 => ?_, fun _ => trivial, fun _ _ _ => trivial⟩
          rw [addAssign_eq] at h1 h2
          simp only [ExactAt, Span.stop] at *
          omega
        | err e o2 =>
          refine ⟨fun _ => ⟨fun t1 h1 => finish_exact ?_, fun _ => trivial⟩, by simp⟩
          rw [addAssign_eq] at h1
          simp only [ExactAt, Span.stop] at *
          omega
        | panic => trivial
      | err e o'' => simp only [ExactAt] at hr; subst hr; exact finish_exact hJ
      | panic => trivial
    have two : ∀ a b, Child G a p → Child G b p →
        Sat (caseR (matWith (parse G n) none d a o)
          (fun s1 o1 => caseR (matWith (parse G n) none d b o1)
            (fun s2 o2 => addK s1 s2 fun s => some (.ok s o2))
            (fun e _ => some (.err e o)))
          (fun e _ => some (.err e o))) (ExactAt o) := by
      intro a b ha hb
      exact sat_caseR (I _ _ ha) (fun _ o1 h1 => sat_caseR (I _ o1 hb)
        (fun _ _ h2 => sat_addK (fun _ hs => Sat.some (add2 _ _ _ _ _ h1 h2 hs)) (fun _ => trivial))
        (fun _ _ _ => E _) P) (fun _ _ _ => E _) P
    simp only [parse]
    cases p <;> simp only [step]
    case empty => exact K _ _ ⟨rfl, rfl⟩
    case fail => exact E _
    case start => exact sat_ite (fun _ => K _ _ ⟨rfl, rfl⟩) (fun _ => E _)
    case anchorEnd => exact sat_ite (fun _ => K _ _ ⟨rfl, rfl⟩) (fun _ => E _)
    case consume =>
      exact sat_remK (fun _ => sat_ite (fun _ => K _ _ ⟨rfl, rfl⟩) (fun _ => E _)) (fun _ => trivial)
    case consumeAll => exact K _ _ ⟨rfl, rfl⟩
    case lit => exact (leaf_lit _ _ _ True).imp fun _ => LeafPost.exactAt
    case native f =>
      intro r hr
      have := h.self
      simp only [Tidy, Option.some.injEq] at this hr
      cases r with
      | ok s o' => exact (this d o).1 s o' hr
      | err e o' => exact (this d o).2 e o' hr
      | panic => trivial
    case once => exact (leaf_once _ _ _ _ _).imp fun _ => LeafPost.exactAt
    case many1 => exact (leaf_many1 _ _ _ _ _).imp fun _ => LeafPost.exactAt
    case optU => exact (leaf_optU _ _ _ _ _).imp fun _ => LeafPost.exactAt
    case many0 => exact (leaf_many0 _ _ _ _ _).imp fun _ => LeafPost.exactAt
    case between => exact (leaf_between _ _ _ _ _ _ _).imp fun _ => LeafPost.exactAt
    case times => exact (leaf_times _ _ _ _ _ _).imp fun _ => LeafPost.exactAt
    case thenU => exact (leaf_thenU _ _ _ _ _ _).imp fun _ => LeafPost.exactAt
    case assert =>
      exact sat_caseR (sat_true _) (fun _ _ _ => sat_ite (fun _ => K _ _ ⟨rfl, rfl⟩) (fun _ => E _))
        (fun _ _ _ => sat_ite (fun _ => E _) (fun _ => K _ _ ⟨rfl, rfl⟩)) P
    case thn => exact two _ _ (.inl rfl) (.inr rfl)
    case pre => exact two _ _ (.inl rfl) (.inr rfl)
    case suf => exact two _ _ (.inl rfl) (.inr rfl)
    case ifThen =>
      exact sat_caseR (I _ _ (.inl rfl)) (fun s1 o1 h1 => sat_caseR (I _ o1 (.inr (.inl rfl)))
        (fun _ o2 h2 => sat_addK (fun _ hs => sat_caseR (I _ o2 (.inr (.inr rfl)))
          (fun _ _ h3 => sat_addK
            (fun _ hs' => Sat.some (add2 _ _ _ _ _ (add2 _ _ _ _ _ h1 h2 hs) h3 hs')) (fun _ => trivial))
          (fun _ _ _ => E _) P) (fun _ => trivial)) (fun _ _ _ => Sat.some h1)
        P) (fun _ _ _ => E _) P
    case enclose =>
      exact sat_caseR (I _ _ (.inl rfl)) (fun s1 o1 h1 => sat_caseR (I _ o1 (.inr (.inl rfl)))
        (fun _ o2 h2 => sat_addK (fun _ hs => sat_caseR (I _ o2 (.inr (.inr rfl)))
          (fun _ _ h3 => sat_addK
            (fun _ hs' => Sat.some (add2 _ _ _ _ _ (add2 _ _ _ _ _ h1 h2 hs) h3 hs')) (fun _ => trivial))
          (fun _ _ _ => E _) P) (fun _ => trivial)) (fun _ _ _ => E _)
        P) (fun _ _ _ => E _) P
    case sepOnce =>
      have h0 : ExactAt o (.ok ⟨o, 0⟩ o) := ⟨rfl, rfl⟩
      exact sat_caseR (I _ _ (.inl rfl)) (fun s1 o1 h1 => sat_addK (fun _ hs0 =>
        sat_caseR (I _ o1 (.inr (.inl rfl)))
        (fun _ o2 h2 => sat_addK (fun _ hs => sat_caseR (I _ o2 (.inr (.inr rfl)))
          (fun _ _ h3 => sat_addK
            (fun _ hs' => Sat.some (add2 _ _ _ _ _
              (add2 _ _ _ _ _ (add2 _ _ _ _ _ h0 h1 hs0) h2 hs) h3 hs')) (fun _ => trivial))
          (fun _ _ _ => E _) P) (fun _ => trivial)) (fun _ _ _ => E _)
        P) (fun _ => trivial)) (fun _ _ _ => E _) P
    case or =>
      exact sat_caseR (I _ _ (.inl rfl)) (fun _ _ h1 => Sat.some h1) (fun _ _ _ =>
        sat_caseR (I _ _ (.inr rfl)) (fun _ _ h2 => Sat.some h2) (fun _ _ _ => E _) P) P
    case longest =>
      have L : ∀ (s : Span) o', ExactAt o (.ok s o') → Sat (some (.ok s (o + s.len))) (ExactAt o) := by
        intro s o' hs
        simp only [ExactAt] at hs
        exact Sat.some ⟨hs.1, by rw [hs.1]⟩
      exact sat_caseR (I _ _ (.inl rfl)) (fun _ _ h1 => sat_caseR (I _ _ (.inr rfl))
        (fun _ _ h2 => sat_ite (fun _ => L _ _ h1) (fun _ => L _ _ h2)) (fun _ _ _ => L _ _ h1)
        P) (fun _ _ _ => sat_caseR (I _ _ (.inr rfl)) (fun _ _ h2 => L _ _ h2)
        (fun _ _ _ => E _) P) P
    case opt =>
      exact sat_caseR (I _ _ rfl) (fun _ _ h1 => Sat.some h1) (fun _ _ _ => K _ _ ⟨rfl, rfl⟩) P
    case choice e items =>
      refine sat_choiceLoop items (fun it hit => (I _ _ ⟨it, hit, rfl⟩).imp fun r hr => ?_) rfl
      cases r
      · exact hr
      · trivial
      · trivial
    case ltm e items => exact absurd h.self id
    case rep => exact loopR _ _ _ _ rfl
    case rep2 => exact loopR _ _ _ _ rfl
    case collect => exact loopR _ _ _ _ rfl
    case sep =>
      have hs := h.self; simp only [Tidy] at hs; subst hs
      exact loopS _ _ _ _ _ (.inl rfl) (.inr rfl)
    case sep2 =>
      have hs := h.self; simp only [Tidy] at hs; subst hs
      exact loopS _ _ _ _ _ (.inl rfl) (.inr rfl)
    case sepCollect =>
      have hs := h.self; simp only [Tidy] at hs; subst hs
      exact loopS _ _ _ _ _ (.inl rfl) (.inr rfl)
    case branch =>
      refine sat_caseO (sat_true _) (fun t _ => sat_caseR (P := ExactAt o) ?_
        (fun _ _ h1 => Sat.some h1) (fun _ _ _ => E _) P) (fun _ _ => E _) P
      cases t
      · exact I _ _ (.inr rfl)
      · exact I _ _ (.inl rfl)
    case map => exact I _ _ rfl
    case pat => exact I _ _ rfl
    case build q f => exact absurd h.self id
    case dthen => exact Sat.some trivial
    case cell i =>
      split
      · exact E _
      · next q hq => exact ih d q o (h.child hq)

/-! ## No panics, forward movement, bounds -/

theorem LeafPost.fwd {d : List ι} {o : Nat} {tp : Prop} {r : Res Span} (hle : o ≤ blen d)
    (htp : ¬ tp) (h : LeafPost d o tp r) : Fwd d o r := by
  cases r with
  | ok s o' =>
    obtain ⟨h1, h2, h3⟩ := h
    refine ⟨by omega, by omega, ?_⟩
    rcases h3 with ⟨run, rest, h4, h5⟩ | h3
    · have := dropB_len h4; simp at this; omega
    · omega
  | err e o' => simp only [LeafPost] at h; subst h; exact ⟨Nat.le_refl _, hle⟩
  | panic => rcases h with h | h
             · omega
             · exact htp h

theorem fwd_mat {G : Rules ι β} {n : Nat} {pol : Option (Pat ι β)} {d : List ι}
    (hpol : ∀ q, pol = some q → ∀ o, o ≤ blen d → Sat (parse G n none d q o) (Fwd d o))
    {p : Pat ι β} (hp : ∀ o, o ≤ blen d → Sat (parse G n pol d p o) (Fwd d o)) {o : Nat}
    (ho : o ≤ blen d) : Sat (matWith (parse G n) pol d p o) (Fwd d o) := by
  cases pol with
  | none => exact hp o ho
  | some q =>
    refine sat_caseR (hpol q rfl o ho) (fun s o1 h1 => ?_) (fun _ _ h => Sat.some h) id
    obtain ⟨h1, h2, h3⟩ := h1
    refine (hp o1 h3).imp fun r hr => ?_
    cases r with
    | ok s o' => obtain ⟨h4, h5, h6⟩ := hr; exact ⟨by omega, h5, h6⟩
    | err e o' => obtain ⟨h4, h5⟩ := hr; exact ⟨by omega, h5⟩
    | panic => exact hr

theorem finish_fwd {ok : Nat → Bool} {e : Error} {beg cnt : Nat} {t : Span} {d : List ι} {o : Nat}
    (hb : beg ≤ blen d) (h : beg ≤ t.beg ∧ t.stop ≤ o ∧ o ≤ blen d) :
    Sat (finish ok e beg cnt t o) (Fwd d beg) := by
  unfold finish; split
  · exact Sat.some h
  · exact Sat.some ⟨Nat.le_refl _, hb⟩

theorem safe_inv (G : Rules ι β) (n : Nat) (pol : Option (Pat ι β)) (hpol : SafePol G pol)
    (d : List ι) (p : Pat ι β) (o : Nat) (ho : o ≤ blen d)
    (h : All G (Safe G pol) p) : Sat (parse G n pol d p o) (Fwd d o) := by
  induction n generalizing pol d p o with
  | zero => exact Sat.none
  | succ n ih =>
    have I : ∀ q o, Child G q p → o ≤ blen d → Sat (matWith (parse G n) pol d q o) (Fwd d o) :=
      fun q o hc ho => fwd_mat (fun q' hq' o ho => ih none (fun _ h => by cases h) d q' o ho (hpol q' hq'))
        (fun o ho => ih pol hpol d q o ho (h.child hc)) ho
    have E : ∀ (e : Error), Sat (some (Res.err e o : Res Span)) (Fwd d o) :=
      fun e => Sat.some ⟨Nat.le_refl _, ho⟩
    have K0 : Sat (some (Res.ok (⟨o, 0⟩ : Span) o)) (Fwd d o) :=
      Sat.some ⟨Nat.le_refl _, Nat.le_refl _, ho⟩
    have P : Fwd d o .panic → Fwd d o .panic := id
    have P' : ∀ o1, Fwd d o1 (.panic : Res Span) → Fwd d o .panic := fun _ => id
    have add2 : ∀ (s1 s2 s : Span) (o1 o2 : Nat), Fwd d o (.ok s1 o1) → Fwd d o1 (.ok s2 o2) →
        s1.addAssign s2 = some s → Fwd d o (.ok s o2) := by
      intro s1 s2 s o1 o2 h1 h2 ha
      rw [addAssign_eq] at ha
      simp only [Fwd, Span.stop] at *
      omega
    have addN : ∀ (s1 s2 : Span) (o1 o2 : Nat), Fwd d o (.ok s1 o1) → Fwd d o1 (.ok s2 o2) →
        s1.addAssign s2 = none → False := by
      intro s1 s2 o1 o2 h1 h2 ha
      rw [addAssign_none] at ha
      simp only [Fwd, Span.stop] at *
      omega
    have loopR : ∀ (q : Pat ι β) (more : Nat → Bool) (ok : Nat → Bool) (e : Error), Child G q p →
        Sat (repLoop (matWith (parse G n) pol d) q more (finish ok e o) n 0 ⟨o, 0⟩ o)
          (Fwd d o) := by
      intro q more ok e hc
      refine sat_repLoop (fun _ t o' => o ≤ t.beg ∧ t.stop ≤ o' ∧ o' ≤ blen d)
        (fun cnt t o' hJ _ => ?_)
        (fun _ _ _ h _ => finish_fwd ho h) _ _ _ _ ⟨Nat.le_refl _, Nat.le_refl _, ho⟩
      refine (I q o' hc hJ.2.2).imp fun r hr => ?_
      cases r with
      | ok s o'' =>
        refine ⟨fun t' ht => ?_, fun ht => ?_⟩
        · rw [addAssign_eq] at ht
          simp only [Fwd, Span.stop] at *
          omega
        · rw [addAssign_none] at ht
          simp only [Fwd, Span.stop] at *
          omega
      | err e o'' =>
        simp only [Fwd, Span.stop] at hr hJ
        exact finish_fwd ho ⟨hJ.1, by simp only [Span.stop]; omega, hr.2⟩
      | panic => exact hr
    have loopS : ∀ (q s : Pat ι β) (skip : Bool) (more : Nat → Bool) (ok : Nat → Bool) (e : Error),
        Child G q p → Child G s p →
        Sat (sepLoop (matWith (parse G n) pol d) q s skip more (finish ok e o) n 0 ⟨o, 0⟩ o)
          (Fwd d o) := by
      intro q s skip more ok e hc hc'
      refine sat_sepLoop (fun _ t o' => o ≤ t.beg ∧ t.stop ≤ o' ∧ o' ≤ blen d)
        (fun cnt t o' hJ _ => ?_)
        (fun _ _ _ h _ => finish_fwd ho h) _ _ _ _ ⟨Nat.le_refl _, Nat.le_refl _, ho⟩
      refine (I q o' hc hJ.2.2).imp fun r hr => ?_
      cases r with
      | ok ps o1 =>
        refine (I s o1 hc' hr.2.2).imp fun r' hr' => ?_
        cases r' with
        | ok ss o2 =>
          refine ⟨fun t1 t2 h1 h2 => ?_, fun h1 => ?_, fun t1 h1 h2 => ?_⟩
          · rw [addAssign_eq] at h1 h2
            simp only [Fwd, Span.stop] at *
            omega
          · rw [addAssign_none] at h1
            simp only [Fwd, Span.stop] at *
            omega
          · rw [addAssign_eq] at h1
            rw [addAssign_none] at h2
            simp only [Fwd, Span.stop] at *
            omega
        | err e o2 =>
          refine ⟨fun _ => ⟨fun t1 h1 => finish_fwd ho ?_, fun h1 => ?_⟩, fun _ => finish_fwd ho ?_⟩
          · rw [addAssign_eq] at h1
            simp only [Fwd, Span.stop] at *
            omega
          · rw [addAssign_none] at h1
            simp only [Fwd, Span.stop] at *
            omega
          · simp only [Fwd, Span.stop] at *
            omega
        | panic => exact hr'
      | err e o'' =>
        simp only [Fwd, Span.stop] at hr hJ
        exact finish_fwd ho ⟨hJ.1, by simp only [Span.stop]; omega, hr.2⟩
      | panic => exact hr
    have two : ∀ a b, Child G a p → Child G b p →
        Sat (caseR (matWith (parse G n) pol d a o)
          (fun s1 o1 => caseR (matWith (parse G n) pol d b o1)
            (fun s2 o2 => addK s1 s2 fun s => some (.ok s o2))
            (fun e _ => some (.err e o)))
          (fun e _ => some (.err e o))) (Fwd d o) := by
      intro a b ha hb
      exact sat_caseR (I _ _ ha ho) (fun _ o1 h1 => sat_caseR (I _ o1 hb h1.2.2)
        (fun _ _ h2 => sat_addK (fun _ hs => Sat.some (add2 _ _ _ _ _ h1 h2 hs))
          (addN _ _ _ _ h1 h2))
        (fun _ _ _ => E _) (P' o1)) (fun _ _ _ => E _) P
    have noChk : ∀ c : Cond ι β, c.NoPanic → (∀ q, c.Has q → Child G q p) →
        ¬ CheckPanics (matWith (parse G n) pol) d o c := by
      rintro c hc hch ⟨l, pr, hl, hpr, hp⟩
      cases c with
      | empty => simp [check] at hp
      | fn f => simp only [check, Option.some.injEq] at hp; exact hc _ _ _ hp
      | regex q =>
        obtain ⟨a, b, h1, h2⟩ := mem_indices hpr
        have hd : origAt d (o + pr.1) = .ok (pr.2 :: b) := by
          rw [origAt_ok, dropB_add hl, h1, h2, Nat.zero_add, dropB_append]
        simp only [check, hd] at hp
        have hq := h.child (hch q rfl)
        have := fwd_mat (G := G) (n := n) (pol := pol) (d := pr.2 :: b) (p := q) (o := 0)
          (fun q' hq' o ho => ih none (fun _ h => by cases h) _ q' o ho (hpol q' hq'))
          (fun o ho => ih pol hpol _ q o ho hq) (Nat.zero_le _)
        cases hm : matWith (parse G n) pol (pr.2 :: b) q 0 with
        | none => simp [hm] at hp
        | some v =>
          have hv := this v hm
          cases v <;> simp [hm] at hp
          exact hv
    simp only [parse]
    cases p <;> simp only [step]
    case empty => exact K0
    case fail => exact E _
    case start => exact sat_ite (fun _ => K0) (fun _ => E _)
    case anchorEnd => exact sat_ite (fun _ => K0) (fun _ => E _)
    case consume k =>
      refine sat_remK (fun _ => sat_ite (fun hk => Sat.some ?_) (fun _ => E _)) (fun _ => by omega)
      exact ⟨Nat.le_refl _, Nat.le_refl _, by omega⟩
    case consumeAll => exact Sat.some ⟨Nat.le_refl _, Nat.le_refl _, by omega⟩
    case lit => exact (leaf_lit _ _ _ False).imp fun _ => LeafPost.fwd ho id
    case native f =>
      have := h.self
      simp only [Safe] at this
      exact Sat.some (this d o ho)
    case once u c => exact (leaf_once _ _ _ _ _).imp fun _ => LeafPost.fwd ho (noChk c h.self fun _ => id)
    case many1 u c => exact (leaf_many1 _ _ _ _ _).imp fun _ => LeafPost.fwd ho (noChk c h.self fun _ => id)
    case optU u c => exact (leaf_optU _ _ _ _ _).imp fun _ => LeafPost.fwd ho (noChk c h.self fun _ => id)
    case many0 u c => exact (leaf_many0 _ _ _ _ _).imp fun _ => LeafPost.fwd ho (noChk c h.self fun _ => id)
    case between u c => exact (leaf_between _ _ _ _ _ _ _).imp fun _ => LeafPost.fwd ho (noChk _ h.self fun _ => id)
    case times r u c => exact (leaf_times _ _ _ _ _ _).imp fun _ => LeafPost.fwd ho (noChk c h.self fun _ => id)
    case thenU u v c => exact (leaf_thenU _ _ _ _ _ _).imp fun _ => LeafPost.fwd ho (noChk c h.self fun _ => id)
    case assert =>
      exact sat_caseR (I _ _ rfl ho) (fun _ _ _ => sat_ite (fun _ => K0) (fun _ => E _))
        (fun _ _ _ => sat_ite (fun _ => E _) (fun _ => K0)) P
    case thn => exact two _ _ (.inl rfl) (.inr rfl)
    case pre => exact two _ _ (.inl rfl) (.inr rfl)
    case suf => exact two _ _ (.inl rfl) (.inr rfl)
    case ifThen =>
      exact sat_caseR (I _ _ (.inl rfl) ho) (fun s1 o1 h1 =>
        sat_caseR (I _ o1 (.inr (.inl rfl)) h1.2.2)
        (fun _ o2 h2 => sat_addK (fun _ hs => sat_caseR (I _ o2 (.inr (.inr rfl)) h2.2.2)
          (fun _ _ h3 => sat_addK
            (fun _ hs' => Sat.some (add2 _ _ _ _ _ (add2 _ _ _ _ _ h1 h2 hs) h3 hs'))
            (addN _ _ _ _ (add2 _ _ _ _ _ h1 h2 hs) h3))
          (fun _ _ _ => E _) (P' _)) (addN _ _ _ _ h1 h2)) (fun _ _ _ => Sat.some h1)
        (P' _)) (fun _ _ _ => E _) P
    case enclose =>
      exact sat_caseR (I _ _ (.inl rfl) ho) (fun s1 o1 h1 =>
        sat_caseR (I _ o1 (.inr (.inl rfl)) h1.2.2)
        (fun _ o2 h2 => sat_addK (fun _ hs => sat_caseR (I _ o2 (.inr (.inr rfl)) h2.2.2)
          (fun _ _ h3 => sat_addK
            (fun _ hs' => Sat.some (add2 _ _ _ _ _ (add2 _ _ _ _ _ h1 h2 hs) h3 hs'))
            (addN _ _ _ _ (add2 _ _ _ _ _ h1 h2 hs) h3))
          (fun _ _ _ => E _) (P' _)) (addN _ _ _ _ h1 h2)) (fun _ _ _ => E _)
        (P' _)) (fun _ _ _ => E _) P
    case sepOnce =>
      have h0 : Fwd d o (.ok ⟨o, 0⟩ o) := ⟨Nat.le_refl _, Nat.le_refl _, ho⟩
      exact sat_caseR (I _ _ (.inl rfl) ho) (fun s1 o1 h1 => sat_addK (fun _ hs0 =>
        sat_caseR (I _ o1 (.inr (.inl rfl)) h1.2.2)
        (fun _ o2 h2 => sat_addK (fun _ hs => sat_caseR (I _ o2 (.inr (.inr rfl)) h2.2.2)
          (fun _ _ h3 => sat_addK
            (fun _ hs' => Sat.some (add2 _ _ _ _ _
              (add2 _ _ _ _ _ (add2 _ _ _ _ _ h0 h1 hs0) h2 hs) h3 hs'))
              (addN _ _ _ _ (add2 _ _ _ _ _ (add2 _ _ _ _ _ h0 h1 hs0) h2 hs) h3))
          (fun _ _ _ => E _) (P' _)) (addN _ _ _ _ (add2 _ _ _ _ _ h0 h1 hs0) h2))
        (fun _ _ _ => E _)
        (P' _)) (addN _ _ _ _ h0 h1)) (fun _ _ _ => E _) P
    case or =>
      exact sat_caseR (I _ _ (.inl rfl) ho) (fun _ _ h1 => Sat.some h1) (fun _ _ _ =>
        sat_caseR (I _ _ (.inr rfl) ho) (fun _ _ h2 => Sat.some h2) (fun _ _ _ => E _) P) P
    case longest a b =>
      have hs := h.self
      simp only [Safe] at hs
      obtain ⟨rfl, ha, hb⟩ := hs
      have L : ∀ (s : Span) o', (Fwd d o (.ok s o') ∧ ExactAt o (.ok s o')) →
          Sat (some (.ok s (o + s.len))) (Fwd d o) := by
        intro s o' hs
        simp only [ExactAt, Fwd] at hs
        exact Sat.some ⟨by omega, by omega, by omega⟩
      have both : ∀ q, Child G q (.longest a b) → All G Tidy q →
          Sat (matWith (parse G n) none d q o) (fun r => Fwd d o r ∧ ExactAt o r) :=
        fun q hc ht r hr => ⟨I q o hc ho r hr, exact_inv G n d q o ht r hr⟩
      exact sat_caseR (both _ (.inl rfl) ha) (fun _ _ h1 => sat_caseR (both _ (.inr rfl) hb)
        (fun _ _ h2 => sat_ite (fun _ => L _ _ h1) (fun _ => L _ _ h2)) (fun _ _ _ => L _ _ h1)
        (fun h => h.1)) (fun _ _ _ => sat_caseR (both _ (.inr rfl) hb) (fun _ _ h2 => L _ _ h2)
        (fun _ _ _ => E _) (fun h => h.1)) (fun h => h.1)
    case opt => exact sat_caseR (I _ _ rfl ho) (fun _ _ h1 => Sat.some h1) (fun _ _ _ => K0) P
    case choice e items =>
      refine sat_choiceLoop items (fun it hit => (I _ _ ⟨it, hit, rfl⟩ ho).imp fun r hr => ?_)
        ⟨Nat.le_refl _, ho⟩
      cases r
      · exact hr
      · trivial
      · exact hr
    case ltm e items => exact absurd h.self id
    case rep => exact loopR _ _ _ _ rfl
    case rep2 => exact loopR _ _ _ _ rfl
    case collect => exact loopR _ _ _ _ rfl
    case sep => exact loopS _ _ _ _ _ _ (.inl rfl) (.inr rfl)
    case sep2 => exact loopS _ _ _ _ _ _ (.inl rfl) (.inr rfl)
    case sepCollect => exact loopS _ _ _ _ _ _ (.inl rfl) (.inr rfl)
    case branch t a b =>
      have ht := h.self
      simp only [Safe] at ht
      refine sat_caseO (P := fun x => x = t d o) (Sat.some rfl) (fun b _ => sat_caseR (P := Fwd d o) ?_
        (fun _ _ h1 => Sat.some h1) (fun _ _ _ => E _) P) (fun _ _ => E _)
        (fun hh => absurd hh.symm (ht d o))
      cases b
      · exact I _ _ (.inr rfl) ho
      · exact I _ _ (.inl rfl) ho
    case map => exact I _ _ rfl ho
    case pat => exact I _ _ rfl ho
    case build q f =>
      have hf := h.self
      simp only [Safe] at hf
      refine sat_caseR (I _ _ (.inl rfl) ho) (fun s o1 h1 => ?_) (fun _ _ _ => E _) P
      have hf1 := hf d o1 s h1.2.2
      obtain ⟨h1, h2, h3⟩ := h1
      refine sat_caseR (P := fun x => x = f d o1 s) (Sat.some rfl) (fun q' o2 hq => ?_)
        (fun e o2 hh => ?_) (fun hh => ?_)
      · rw [← hq] at hf1
        simp only at hf1
        refine sat_caseR (I q' o2 (.inr ⟨_, _, _, _, hq.symm⟩) hf1.2) (fun s' o3 h4 => Sat.some ?_)
          (fun _ _ _ => E _) (P' _)
        simp only [Fwd] at h4 ⊢
        omega
      · rw [← hh] at hf1
        simp only at hf1
        exact Sat.some ⟨by omega, hf1.2⟩
      · rw [← hh] at hf1; exact absurd hf1 id
    case dthen => exact absurd h.self id
    case cell i =>
      split
      · exact E _
      · next q hq => exact ih pol hpol d q o ho (h.child hq)

/-! ## Character boundaries -/

/-- Post-condition: span ends and offset are boundaries. -/
def OnBound (d : List ι) : Res Span → Prop
  | .ok s o' => Valid d s.beg ∧ Valid d s.stop ∧ Valid d o'
  | .err _ o' => Valid d o'
  | .panic => True

theorem LeafPost.onBound {d : List ι} {o : Nat} {tp : Prop} {r : Res Span} (ho : Valid d o)
    (h : LeafPost d o tp r) : OnBound d r := by
  cases r with
  | ok s o' =>
    obtain ⟨h1, h2, h3⟩ := h
    have hv : Valid d (o + s.len) := by
      rcases h3 with ⟨run, rest, h4, h5⟩ | h3
      · rw [← h5]; exact Valid.add h4
      · rw [h3]; exact ho
    exact ⟨by rw [h1]; exact ho, by rw [Span.stop, h1]; exact hv, by rw [h2]; exact hv⟩
  | err e o' => simp only [LeafPost] at h; subst h; exact ho
  | panic => trivial

theorem bound_mat {G : Rules ι β} {n : Nat} {pol : Option (Pat ι β)} {d : List ι}
    (hpol : ∀ q, pol = some q → ∀ o, Valid d o → Sat (parse G n none d q o) (OnBound d))
    {p : Pat ι β} (hp : ∀ o, Valid d o → Sat (parse G n pol d p o) (OnBound d)) {o : Nat}
    (ho : Valid d o) : Sat (matWith (parse G n) pol d p o) (OnBound d) := by
  cases pol with
  | none => exact hp o ho
  | some q => exact sat_caseR (hpol q rfl o ho) (fun s o1 h1 => hp o1 h1.2.2) (fun _ _ h => Sat.some h) id

theorem finish_bound {ok : Nat → Bool} {e : Error} {beg cnt : Nat} {t : Span} {d : List ι} {o : Nat}
    (hb : Valid d beg) (h : Valid d t.beg ∧ Valid d t.stop ∧ Valid d o) :
    Sat (finish ok e beg cnt t o) (OnBound d) := by
  unfold finish; split
  · exact Sat.some h
  · exact Sat.some hb

theorem bound_inv (G : Rules ι β) (n : Nat) (pol : Option (Pat ι β)) (hpol : BoundPol G pol)
    (d : List ι) (p : Pat ι β) (o : Nat) (ho : Valid d o)
    (h : All G (Bounded G pol) p) : Sat (parse G n pol d p o) (OnBound d) := by
  induction n generalizing pol d p o with
  | zero => exact Sat.none
  | succ n ih =>
    have I : ∀ q o, Child G q p → Valid d o → Sat (matWith (parse G n) pol d q o) (OnBound d) :=
      fun q o hc ho => bound_mat (fun q' hq' o ho => ih none (fun _ h => by cases h) d q' o ho (hpol q' hq'))
        (fun o ho => ih pol hpol d q o ho (h.child hc)) ho
    have E : ∀ (e : Error), Sat (some (Res.err e o : Res Span)) (OnBound d) := fun e => Sat.some ho
    have K0 : Sat (some (Res.ok (⟨o, 0⟩ : Span) o)) (OnBound d) := Sat.some ⟨ho, ho, ho⟩
    have P : True → OnBound d .panic := id
    have add2 : ∀ (s1 s2 s : Span) (o1 o2 : Nat), OnBound d (.ok s1 o1) → OnBound d (.ok s2 o2) →
        s1.addAssign s2 = some s → OnBound d (.ok s o2) := by
      intro s1 s2 s o1 o2 h1 h2 ha
      rw [addAssign_eq] at ha
      obtain ⟨_, _, h3, h4⟩ := ha
      exact ⟨by rw [h3]; exact h1.1, by rw [h4]; exact h2.2.1, h2.2.2⟩
    have loopR : ∀ (q : Pat ι β) (more : Nat → Bool) (ok : Nat → Bool) (e : Error), Child G q p →
        Sat (repLoop (matWith (parse G n) pol d) q more (finish ok e o) n 0 ⟨o, 0⟩ o)
          (OnBound d) := by
      intro q more ok e hc
      refine sat_repLoop (fun _ t o' => OnBound d (.ok t o'))
        (fun cnt t o' hJ _ => ?_)
        (fun _ _ _ h _ => finish_bound ho h) _ _ _ _ ⟨ho, ho, ho⟩
      refine (I q o' hc hJ.2.2).imp fun r hr => ?_
      cases r with
      | ok s o'' => exact ⟨fun t' ht => add2 _ _ _ _ _ hJ hr ht, fun _ => trivial⟩
      | err e o'' => exact finish_bound ho ⟨hJ.1, hJ.2.1, hr⟩
      | panic => exact hr
    have loopS : ∀ (q s : Pat ι β) (skip : Bool) (more : Nat → Bool) (ok : Nat → Bool) (e : Error),
        Child G q p → Child G s p →
        Sat (sepLoop (matWith (parse G n) pol d) q s skip more (finish ok e o) n 0 ⟨o, 0⟩ o)
          (OnBound d) := by
      intro q s skip more ok e hc hc'
      refine sat_sepLoop (fun _ t o' => OnBound d (.ok t o'))
        (fun cnt t o' hJ _ => ?_)
        (fun _ _ _ h _ => finish_bound ho h) _ _ _ _ ⟨ho, ho, ho⟩
      refine (I q o' hc hJ.2.2).imp fun r hr => ?_
      cases r with
      | ok ps o1 =>
        refine (I s o1 hc' hr.2.2).imp fun r' hr' => ?_
        cases r' with
        | ok ss o2 =>
          exact ⟨fun t1 t2 h1 h2 => add2 _ _ _ _ _ (add2 _ _ _ _ _ hJ hr h1) hr' h2,
            fun _ => trivial, fun _ _ _ => trivial⟩
        | err e o2 =>
          refine ⟨fun _ => ⟨fun t1 h1 => ?_, fun _ => trivial⟩,
            fun _ => finish_bound ho ⟨hJ.1, hJ.2.1, hr'⟩⟩
          have := add2 _ _ _ _ _ hJ hr h1
          exact finish_bound ho ⟨this.1, this.2.1, hr'⟩
        | panic => exact hr'
      | err e o'' => exact finish_bound ho ⟨hJ.1, hJ.2.1, hr⟩
      | panic => exact hr
    have two : ∀ a b, Child G a p → Child G b p →
        Sat (caseR (matWith (parse G n) pol d a o)
          (fun s1 o1 => caseR (matWith (parse G n) pol d b o1)
            (fun s2 o2 => addK s1 s2 fun s => some (.ok s o2))
            (fun e _ => some (.err e o)))
          (fun e _ => some (.err e o))) (OnBound d) := by
      intro a b ha hb
      exact sat_caseR (I _ _ ha ho) (fun _ o1 h1 => sat_caseR (I _ o1 hb h1.2.2)
        (fun _ _ h2 => sat_addK (fun _ hs => Sat.some (add2 _ _ _ _ _ h1 h2 hs)) (fun _ => trivial))
        (fun _ _ _ => E _) P) (fun _ _ _ => E _) P
    simp only [parse]
    cases p <;> simp only [step]
    case empty => exact K0
    case fail => exact E _
    case start => exact sat_ite (fun _ => K0) (fun _ => E _)
    case anchorEnd => exact sat_ite (fun _ => K0) (fun _ => E _)
    case consume k =>
      have hk := h.self
      simp only [Bounded] at hk
      refine sat_remK (fun _ => sat_ite (fun hk' => ?_) (fun _ => E _)) (fun _ => trivial)
      rcases hk with rfl | hk
      · exact K0
      · have hv : Valid d (o + k) := valid_of_bytes hk (by omega)
        exact Sat.some ⟨ho, hv, hv⟩
    case consumeAll =>
      have hv : Valid d (o + (blen d - o)) := by
        have := ho.le
        rw [show o + (blen d - o) = blen d by omega]; exact valid_len d
      exact Sat.some ⟨ho, hv, hv⟩
    case lit => exact (leaf_lit _ _ _ False).imp fun _ => LeafPost.onBound ho
    case native f =>
      have := h.self
      simp only [Bounded] at this
      have := this d o ho
      refine Sat.some ?_
      cases hf : f d o <;> rw [hf] at this <;> exact this
    case once u c => exact (leaf_once _ _ _ _ _).imp fun _ => LeafPost.onBound ho
    case many1 u c => exact (leaf_many1 _ _ _ _ _).imp fun _ => LeafPost.onBound ho
    case optU u c => exact (leaf_optU _ _ _ _ _).imp fun _ => LeafPost.onBound ho
    case many0 u c => exact (leaf_many0 _ _ _ _ _).imp fun _ => LeafPost.onBound ho
    case between u c => exact (leaf_between _ _ _ _ _ _ _).imp fun _ => LeafPost.onBound ho
    case times r u c => exact (leaf_times _ _ _ _ _ _).imp fun _ => LeafPost.onBound ho
    case thenU u v c => exact (leaf_thenU _ _ _ _ _ _).imp fun _ => LeafPost.onBound ho
    case assert =>
      exact sat_caseR (I _ _ rfl ho) (fun _ _ _ => sat_ite (fun _ => K0) (fun _ => E _))
        (fun _ _ _ => sat_ite (fun _ => E _) (fun _ => K0)) P
    case thn => exact two _ _ (.inl rfl) (.inr rfl)
    case pre => exact two _ _ (.inl rfl) (.inr rfl)
    case suf => exact two _ _ (.inl rfl) (.inr rfl)
    case ifThen =>
      exact sat_caseR (I _ _ (.inl rfl) ho) (fun s1 o1 h1 =>
        sat_caseR (I _ o1 (.inr (.inl rfl)) h1.2.2)
        (fun _ o2 h2 => sat_addK (fun _ hs => sat_caseR (I _ o2 (.inr (.inr rfl)) h2.2.2)
          (fun _ _ h3 => sat_addK
            (fun _ hs' => Sat.some (add2 _ _ _ _ _ (add2 _ _ _ _ _ h1 h2 hs) h3 hs'))
            (fun _ => trivial))
          (fun _ _ _ => E _) P) (fun _ => trivial)) (fun _ _ _ => Sat.some h1)
        P) (fun _ _ _ => E _) P
    case enclose =>
      exact sat_caseR (I _ _ (.inl rfl) ho) (fun s1 o1 h1 =>
        sat_caseR (I _ o1 (.inr (.inl rfl)) h1.2.2)
        (fun _ o2 h2 => sat_addK (fun _ hs => sat_caseR (I _ o2 (.inr (.inr rfl)) h2.2.2)
          (fun _ _ h3 => sat_addK
            (fun _ hs' => Sat.some (add2 _ _ _ _ _ (add2 _ _ _ _ _ h1 h2 hs) h3 hs'))
            (fun _ => trivial))
          (fun _ _ _ => E _) P) (fun _ => trivial)) (fun _ _ _ => E _)
        P) (fun _ _ _ => E _) P
    case sepOnce =>
      have h0 : OnBound d (.ok ⟨o, 0⟩ o) := ⟨ho, ho, ho⟩
      exact sat_caseR (I _ _ (.inl rfl) ho) (fun s1 o1 h1 => sat_addK (fun _ hs0 =>
        sat_caseR (I _ o1 (.inr (.inl rfl)) h1.2.2)
        (fun _ o2 h2 => sat_addK (fun _ hs => sat_caseR (I _ o2 (.inr (.inr rfl)) h2.2.2)
          (fun _ _ h3 => sat_addK
            (fun _ hs' => Sat.some (add2 _ _ _ _ _
              (add2 _ _ _ _ _ (add2 _ _ _ _ _ h0 h1 hs0) h2 hs) h3 hs'))
              (fun _ => trivial))
          (fun _ _ _ => E _) P) (fun _ => trivial))
        (fun _ _ _ => E _)
        P) (fun _ => trivial)) (fun _ _ _ => E _) P
    case or =>
      exact sat_caseR (I _ _ (.inl rfl) ho) (fun _ _ h1 => Sat.some h1) (fun _ _ _ =>
        sat_caseR (I _ _ (.inr rfl) ho) (fun _ _ h2 => Sat.some h2) (fun _ _ _ => E _) P) P
    case longest a b =>
      have hs := h.self
      simp only [Bounded] at hs
      obtain ⟨rfl, ha, hb⟩ := hs
      have L : ∀ (s : Span) o', (OnBound d (.ok s o') ∧ ExactAt o (.ok s o')) →
          Sat (some (.ok s (o + s.len))) (OnBound d) := by
        intro s o' hs
        obtain ⟨⟨h1, h2, h3⟩, h4, h5⟩ := hs
        exact Sat.some ⟨h1, h2, by rw [← h4, ← h5]; exact h3⟩
      have both : ∀ q, Child G q (.longest a b) → All G Tidy q →
          Sat (matWith (parse G n) none d q o) (fun r => OnBound d r ∧ ExactAt o r) :=
        fun q hc ht r hr => ⟨I q o hc ho r hr, exact_inv G n d q o ht r hr⟩
      exact sat_caseR (both _ (.inl rfl) ha) (fun _ _ h1 => sat_caseR (both _ (.inr rfl) hb)
        (fun _ _ h2 => sat_ite (fun _ => L _ _ h1) (fun _ => L _ _ h2)) (fun _ _ _ => L _ _ h1)
        (fun h => h.1)) (fun _ _ _ => sat_caseR (both _ (.inr rfl) hb) (fun _ _ h2 => L _ _ h2)
        (fun _ _ _ => E _) (fun h => h.1)) (fun h => h.1)
    case opt => exact sat_caseR (I _ _ rfl ho) (fun _ _ h1 => Sat.some h1) (fun _ _ _ => K0) P
    case choice e items =>
      refine sat_choiceLoop items (fun it hit => (I _ _ ⟨it, hit, rfl⟩ ho).imp fun r hr => ?_) ho
      cases r
      · exact hr
      · trivial
      · exact hr
    case ltm e items =>
      refine sat_ltmLoop (fun best o' => (∀ s, best = some s → Valid d s.beg ∧ Valid d s.stop) ∧
        Valid d o') items ?_ (fun s o' hR => ⟨(hR.1 s rfl).1, (hR.1 s rfl).2, hR.2⟩)
        (fun o' hR => hR.2) none o ⟨by simp, ho⟩
      intro it hit best o' hR
      refine (I _ _ ⟨it, hit, rfl⟩ ho).imp fun r hr => ?_
      cases r with
      | ok s o'' =>
        refine ⟨fun s' hs' => ?_, hr.2.2⟩
        unfold better at hs'
        split at hs'
        · cases hs'; exact ⟨hr.1, hr.2.1⟩
        · split at hs'
          · cases hs'; exact ⟨hr.1, hr.2.1⟩
          · exact hR.1 s' hs'
      | err e o'' => exact ⟨hR.1, hr⟩
      | panic => trivial
    case rep => exact loopR _ _ _ _ rfl
    case rep2 => exact loopR _ _ _ _ rfl
    case collect => exact loopR _ _ _ _ rfl
    case sep => exact loopS _ _ _ _ _ _ (.inl rfl) (.inr rfl)
    case sep2 => exact loopS _ _ _ _ _ _ (.inl rfl) (.inr rfl)
    case sepCollect => exact loopS _ _ _ _ _ _ (.inl rfl) (.inr rfl)
    case branch t a b =>
      refine sat_caseO (sat_true _) (fun b _ => sat_caseR (P := OnBound d) ?_
        (fun _ _ h1 => Sat.some h1) (fun _ _ _ => E _) P) (fun _ _ => E _) P
      cases b
      · exact I _ _ (.inr rfl) ho
      · exact I _ _ (.inl rfl) ho
    case map => exact I _ _ rfl ho
    case pat => exact I _ _ rfl ho
    case build q f =>
      have hf := h.self
      simp only [Bounded] at hf
      refine sat_caseR (I _ _ (.inl rfl) ho) (fun s o1 h1 => ?_) (fun _ _ _ => E _) P
      have hf1 := hf d o1 s h1.2.2
      refine sat_caseR (P := fun x => x = f d o1 s) (Sat.some rfl) (fun q' o2 hq => ?_)
        (fun e o2 hh => ?_) (fun _ => trivial)
      · rw [← hq] at hf1
        exact sat_caseR (I q' o2 (.inr ⟨_, _, _, _, hq.symm⟩) hf1) (fun s' o3 h4 => Sat.some h4)
          (fun _ _ _ => E _) P
      · rw [← hh] at hf1
        exact Sat.some hf1
    case dthen => exact Sat.some trivial
    case cell i =>
      split
      · exact E _
      · next q hq => exact ih pol hpol d q o ho (h.child hq)

/-! ## Under a policy: the span ends at the new offset -/

/-- Post-condition: the span ends at the new offset. -/
def EndAt : Res Span → Prop
  | .ok s o' => o' = s.stop
  | _ => True

theorem LeafPost.endAt {d : List ι} {o : Nat} {tp : Prop} {r : Res Span}
    (h : LeafPost d o tp r) : EndAt r := by
  cases r with
  | ok s o' => obtain ⟨h1, h2, _⟩ := h; simp [EndAt, Span.stop, h1, h2]
  | err => trivial
  | panic => trivial

theorem end_mat {G : Rules ι β} {n : Nat} {pol : Option (Pat ι β)} {d : List ι}
    {p : Pat ι β} (hp : ∀ o, Sat (parse G n pol d p o) EndAt) (o : Nat) :
    Sat (matWith (parse G n) pol d p o) EndAt := by
  cases pol with
  | none => exact hp o
  | some q => exact sat_caseR (sat_true _) (fun s o1 _ => hp o1) (fun _ _ _ => Sat.some trivial) id

theorem ends_inv (G : Rules ι β) (n : Nat) (pol : Option (Pat ι β))
    (d : List ι) (p : Pat ι β) (o : Nat)
    (h : All G Ends p) : Sat (parse G n pol d p o) EndAt := by
  induction n generalizing pol d p o with
  | zero => exact Sat.none
  | succ n ih =>
    have I : ∀ q o, Child G q p → Sat (matWith (parse G n) pol d q o) EndAt :=
      fun q o hc => end_mat (fun o => ih pol d q o (h.child hc)) o
    have E : ∀ (e : Error) o, Sat (some (Res.err e o : Res Span)) EndAt := fun e _ => Sat.some trivial
    have K0 : ∀ o l, Sat (some (Res.ok (⟨o, l⟩ : Span) (o + l))) EndAt := fun o l => Sat.some rfl
    have P : ∀ {q : Prop}, q → EndAt .panic := fun _ => trivial
    have A : ∀ (s1 s2 s : Span) (o2 : Nat), EndAt (.ok s2 o2) →
        s1.addAssign s2 = some s → EndAt (.ok s o2) := by
      intro s1 s2 s o2 h2 ha
      rw [addAssign_eq] at ha
      simp only [EndAt] at *
      omega
    have two : ∀ a b, Child G a p → Child G b p →
        Sat (caseR (matWith (parse G n) pol d a o)
          (fun s1 o1 => caseR (matWith (parse G n) pol d b o1)
            (fun s2 o2 => addK s1 s2 fun s => some (.ok s o2))
            (fun e _ => some (.err e o)))
          (fun e _ => some (.err e o))) EndAt := by
      intro a b ha hb
      exact sat_caseR (I _ _ ha) (fun _ o1 h1 => sat_caseR (I _ o1 hb)
        (fun _ _ h2 => sat_addK (fun _ hs => Sat.some (A _ _ _ _ h2 hs)) P)
        (fun _ _ _ => E _ _) P) (fun _ _ _ => E _ _) P
    simp only [parse]
    cases p <;> simp only [step]
    case empty => exact K0 _ 0
    case fail => exact E _ _
    case start => exact sat_ite (fun _ => K0 _ 0) (fun _ => E _ _)
    case anchorEnd => exact sat_ite (fun _ => K0 _ 0) (fun _ => E _ _)
    case consume k =>
      exact sat_remK (fun _ => sat_ite (fun hk' => K0 _ _) (fun _ => E _ _)) (fun _ => trivial)
    case consumeAll => exact K0 _ _
    case lit => exact (leaf_lit _ _ _ False).imp fun _ => LeafPost.endAt
    case native f =>
      have := h.self
      simp only [Ends] at this
      refine Sat.some ?_
      cases hf : f d o with
      | ok s o' => exact this d o s o' hf
      | err => trivial
      | panic => trivial
    case once u c => exact (leaf_once _ _ _ _ _).imp fun _ => LeafPost.endAt
    case many1 u c => exact (leaf_many1 _ _ _ _ _).imp fun _ => LeafPost.endAt
    case optU u c => exact (leaf_optU _ _ _ _ _).imp fun _ => LeafPost.endAt
    case many0 u c => exact (leaf_many0 _ _ _ _ _).imp fun _ => LeafPost.endAt
    case between u c => exact (leaf_between _ _ _ _ _ _ _).imp fun _ => LeafPost.endAt
    case times r u c => exact (leaf_times _ _ _ _ _ _).imp fun _ => LeafPost.endAt
    case thenU u v c => exact (leaf_thenU _ _ _ _ _ _).imp fun _ => LeafPost.endAt
    case assert =>
      exact sat_caseR (I _ _ rfl) (fun _ _ _ => sat_ite (fun _ => K0 _ 0) (fun _ => E _ _))
        (fun _ _ _ => sat_ite (fun _ => E _ _) (fun _ => K0 _ 0)) P
    case thn => exact two _ _ (.inl rfl) (.inr rfl)
    case pre => exact two _ _ (.inl rfl) (.inr rfl)
    case suf => exact two _ _ (.inl rfl) (.inr rfl)
    case ifThen =>
      exact sat_caseR (I _ _ (.inl rfl)) (fun s1 o1 h1 =>
        sat_caseR (I _ o1 (.inr (.inl rfl)))
        (fun _ o2 h2 => sat_addK (fun _ hs => sat_caseR (I _ o2 (.inr (.inr rfl)))
          (fun _ _ h3 => sat_addK (fun _ hs' => Sat.some (A _ _ _ _ h3 hs')) P)
          (fun _ _ _ => E _ _) P) P) (fun _ _ _ => Sat.some h1)
        P) (fun _ _ _ => E _ _) P
    case enclose =>
      exact sat_caseR (I _ _ (.inl rfl)) (fun s1 o1 h1 =>
        sat_caseR (I _ o1 (.inr (.inl rfl)))
        (fun _ o2 h2 => sat_addK (fun _ hs => sat_caseR (I _ o2 (.inr (.inr rfl)))
          (fun _ _ h3 => sat_addK (fun _ hs' => Sat.some (A _ _ _ _ h3 hs')) P)
          (fun _ _ _ => E _ _) P) P) (fun _ _ _ => E _ _)
        P) (fun _ _ _ => E _ _) P
    case sepOnce =>
      exact sat_caseR (I _ _ (.inl rfl)) (fun s1 o1 h1 => sat_addK (fun _ hs0 =>
        sat_caseR (I _ o1 (.inr (.inl rfl)))
        (fun _ o2 h2 => sat_addK (fun _ hs => sat_caseR (I _ o2 (.inr (.inr rfl)))
          (fun _ _ h3 => sat_addK (fun _ hs' => Sat.some (A _ _ _ _ h3 hs')) P)
          (fun _ _ _ => E _ _) P) P)
        (fun _ _ _ => E _ _)
        P) P) (fun _ _ _ => E _ _) P
    case or =>
      exact sat_caseR (I _ _ (.inl rfl)) (fun _ _ h1 => Sat.some h1) (fun _ _ _ =>
        sat_caseR (I _ _ (.inr rfl)) (fun _ _ h2 => Sat.some h2) (fun _ _ _ => E _ _) P) P
    case opt => exact sat_caseR (I _ _ rfl) (fun _ _ h1 => Sat.some h1) (fun _ _ _ => K0 _ 0) P
    case choice e items =>
      refine sat_choiceLoop items (fun it hit => (I _ _ ⟨it, hit, rfl⟩).imp fun r hr => ?_) trivial
      cases r
      · exact hr
      · trivial
      · exact hr
    case longest | ltm | rep | rep2 | collect | sep | sep2 | sepCollect => exact absurd h.self id
    case branch t a b =>
      refine sat_caseO (sat_true _) (fun b _ => sat_caseR (P := EndAt) ?_
        (fun _ _ h1 => Sat.some h1) (fun _ _ _ => E _ _) P) (fun _ _ => E _ _) P
      cases b
      · exact I _ _ (.inr rfl)
      · exact I _ _ (.inl rfl)
    case map => exact I _ _ rfl
    case pat => exact I _ _ rfl
    case build q f =>
      refine sat_caseR (I _ _ (.inl rfl)) (fun s o1 h1 => ?_) (fun _ _ _ => E _ _) P
      refine sat_caseR (P := fun x => x = f d o1 s) (Sat.some rfl) (fun q' o2 hq => ?_)
        (fun e o2 hh => E _ _) (fun _ => trivial)
      exact sat_caseR (I q' o2 (.inr ⟨_, _, _, _, hq.symm⟩)) (fun s' o3 h4 => Sat.some h4)
        (fun _ _ _ => E _ _) P
    case dthen => exact Sat.some trivial
    case cell i =>
      split
      · exact E _ _
      · next q hq => exact ih pol d q o (h.child hq)

end Neure
