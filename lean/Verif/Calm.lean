import Verif.PropsFind
/-!
# Matching from a position where the policy has nothing to skip

`calm_inv`: started at such a position, a pattern that fails, or that matches
nothing, leaves the context where it was.
-/

namespace Neure

set_option linter.unusedSectionVars false
set_option linter.unusedSimpArgs false

variable {ι β : Type} [Item ι] {G : Rules ι β}

/-- The policy `w` leaves the context at `o`. -/
def RestsAt (G : Rules ι β) (w : Pat ι β) (d : List ι) (o : Nat) : Prop :=
  (∀ s o', Runs G none d w o (.ok s o') → o' = o) ∧ ∀ e o', Runs G none d w o (.err e o') → o' = o

/-- A failure, or a match of nothing, leaves the context at `o`. -/
def CalmAt (o : Nat) : Res Span → Prop
  | .ok s o' => s.len = 0 → o' = o
  | .err _ o' => o' = o
  | .panic => True

theorem LeafPost.calmAt {d : List ι} {o : Nat} {tp : Prop} {r : Res Span}
    (h : LeafPost d o tp r) : CalmAt o r := by
  cases r with
  | ok s o' => intro hs; have := h.2.1; omega
  | err => exact h
  | panic => trivial

theorem finish_calm {ok : Nat → Bool} {e : Error} {beg cnt : Nat} {t : Span} {o : Nat}
    (h : t.len = 0 → o = beg) : Sat (finish ok e beg cnt t o) (CalmAt beg) := by
  unfold finish; split
  · exact Sat.some h
  · exact Sat.some rfl

theorem calm_inv (G : Rules ι β) (w : Pat ι β) (n : Nat) (d : List ι) (p : Pat ι β) (o : Nat)
    (hr : RestsAt G w d o) (h : All G Tidy p) : Sat (parse G n (some w) d p o) (CalmAt o) := by
  induction n generalizing p with
  | zero => exact Sat.none
  | succ n ih =>
    have I : ∀ q o', Child G q p →
        Sat (matWith (parse G n) (some w) d q o') (fun r => o' = o → CalmAt o r) := by
      intro q o' hc r hr' ho
      subst ho
      simp only [matWith] at hr'
      cases hw : parse G n none d w o' with
      | none => rw [hw] at hr'; cases hr'
      | some v =>
        rw [hw] at hr'
        have hrun : Runs G none d w o' v := ⟨n, hw⟩
        cases v with
        | ok s o1 =>
          have := hr.1 s o1 hrun
          subst this
          exact ih q (h.child hc) r hr'
        | err e o1 =>
          simp only [caseR, Option.some.injEq] at hr'
          subst hr'
          exact hr.2 e o1 hrun
        | panic => simp only [caseR, Option.some.injEq] at hr'; subst hr'; trivial
    have I0 : ∀ q, Child G q p → Sat (matWith (parse G n) (some w) d q o) (CalmAt o) :=
      fun q hc => (I q o hc).imp fun r hr => hr rfl
    have E : ∀ (e : Error), Sat (some (Res.err e o : Res Span)) (CalmAt o) := fun e => Sat.some rfl
    have K : ∀ (s : Span) (o' : Nat), (s.len = 0 → o' = o) → Sat (some (Res.ok s o')) (CalmAt o) :=
      fun s o' h => Sat.some h
    have P : True → CalmAt o .panic := id
    have T : ∀ {o1 : Nat}, (o1 = o → CalmAt o .panic) → CalmAt o .panic := fun _ => trivial
    have add2 : ∀ (s1 s2 s : Span) (o1 o2 : Nat), CalmAt o (.ok s1 o1) →
        (o1 = o → CalmAt o (.ok s2 o2)) → s1.addAssign s2 = some s → CalmAt o (.ok s o2) := by
      intro s1 s2 s o1 o2 h1 h2 ha hl
      rw [addAssign_eq] at ha
      simp only [CalmAt, Span.stop] at *
      exact h2 (h1 (by omega)) (by omega)
    have loopR : ∀ (q : Pat ι β) (more : Nat → Bool) (ok : Nat → Bool) (e : Error), Child G q p →
        Sat (repLoop (matWith (parse G n) (some w) d) q more (finish ok e o) n 0 ⟨o, 0⟩ o)
          (CalmAt o) := by
      intro q more ok e hc
      refine sat_repLoop (fun _ t o' => CalmAt o (.ok t o')) (fun cnt t o' hJ _ => ?_)
        (fun _ _ _ h _ => finish_calm h) _ _ _ _ (fun _ => rfl)
      refine (I q o' hc).imp fun r hr => ?_
      cases r with
      | ok s o'' => exact ⟨fun t' ht => add2 _ _ _ _ _ hJ hr ht, fun _ => trivial⟩
      | err e o'' => exact finish_calm fun hl => hr (hJ hl)
      | panic => trivial
    have loopS : ∀ (q s : Pat ι β) (more : Nat → Bool) (ok : Nat → Bool) (e : Error),
        Child G q p → Child G s p →
        Sat (sepLoop (matWith (parse G n) (some w) d) q s true more (finish ok e o) n 0 ⟨o, 0⟩ o)
          (CalmAt o) := by
      intro q s more ok e hc hc'
      refine sat_sepLoop (fun _ t o' => CalmAt o (.ok t o')) (fun cnt t o' hJ _ => ?_)
        (fun _ _ _ h _ => finish_calm h) _ _ _ _ (fun _ => rfl)
      refine (I q o' hc).imp fun r hr => ?_
      cases r with
      | ok ps o1 =>
        refine (I s o1 hc').imp fun r' hr' => ?_
        cases r' with
        | ok ss o2 =>
          exact ⟨fun t1 t2 h1 h2 => add2 _ _ _ _ _ (add2 _ _ _ _ _ hJ hr h1) hr' h2,
            fun _ => trivial, fun _ _ _ => trivial⟩
        | err e o2 =>
          exact ⟨fun _ => ⟨fun t1 h1 => finish_calm fun hl => hr' (add2 _ _ _ _ _ hJ hr h1 hl),
            fun _ => trivial⟩, by simp⟩
        | panic => trivial
      | err e o'' => exact finish_calm fun hl => hr (hJ hl)
      | panic => trivial
    have two : ∀ a b, Child G a p → Child G b p →
        Sat (caseR (matWith (parse G n) (some w) d a o)
          (fun s1 o1 => caseR (matWith (parse G n) (some w) d b o1)
            (fun s2 o2 => addK s1 s2 fun s => some (.ok s o2))
            (fun e _ => some (.err e o)))
          (fun e _ => some (.err e o))) (CalmAt o) := by
      intro a b ha hb
      exact sat_caseR (I0 _ ha) (fun _ o1 h1 => sat_caseR (I _ o1 hb)
        (fun _ _ h2 => sat_addK (fun _ hs => Sat.some (add2 _ _ _ _ _ h1 h2 hs)) (fun _ => trivial))
        (fun _ _ _ => E _) T) (fun _ _ _ => E _) id
    simp only [parse]
    cases p <;> simp only [step]
    case empty => exact K _ _ fun _ => rfl
    case fail => exact E _
    case start => exact sat_ite (fun _ => K _ _ fun _ => rfl) (fun _ => E _)
    case anchorEnd => exact sat_ite (fun _ => K _ _ fun _ => rfl) (fun _ => E _)
    case consume =>
      exact sat_remK (fun _ => sat_ite (fun _ => K _ _ (by simp)) (fun _ => E _)) (fun _ => trivial)
    case consumeAll => exact K _ _ (by intro h; simp only at h ⊢; omega)
    case lit => exact (leaf_lit _ _ _ True).imp fun _ => LeafPost.calmAt
    case native f =>
      intro r hr
      have := h.self
      simp only [Tidy, Option.some.injEq] at this hr
      cases r with
      | ok s o' => intro hl; have := (this d o).1 s o' hr; omega
      | err e o' => exact (this d o).2 e o' hr
      | panic => trivial
    case once => exact (leaf_once _ _ _ _ _).imp fun _ => LeafPost.calmAt
    case many1 => exact (leaf_many1 _ _ _ _ _).imp fun _ => LeafPost.calmAt
    case optU => exact (leaf_optU _ _ _ _ _).imp fun _ => LeafPost.calmAt
    case many0 => exact (leaf_many0 _ _ _ _ _).imp fun _ => LeafPost.calmAt
    case between => exact (leaf_between _ _ _ _ _ _ _).imp fun _ => LeafPost.calmAt
    case times => exact (leaf_times _ _ _ _ _ _).imp fun _ => LeafPost.calmAt
    case thenU => exact (leaf_thenU _ _ _ _ _ _).imp fun _ => LeafPost.calmAt
    case assert =>
      exact sat_caseR (sat_true _) (fun _ _ _ => sat_ite (fun _ => K _ _ fun _ => rfl) (fun _ => E _))
        (fun _ _ _ => sat_ite (fun _ => E _) (fun _ => K _ _ fun _ => rfl)) P
    case thn => exact two _ _ (.inl rfl) (.inr rfl)
    case pre => exact two _ _ (.inl rfl) (.inr rfl)
    case suf => exact two _ _ (.inl rfl) (.inr rfl)
    case ifThen =>
      exact sat_caseR (I0 _ (.inl rfl)) (fun s1 o1 h1 => sat_caseR (I _ o1 (.inr (.inl rfl)))
        (fun _ o2 h2 => sat_addK (fun _ hs => sat_caseR (I _ o2 (.inr (.inr rfl)))
          (fun _ _ h3 => sat_addK
            (fun _ hs' => Sat.some (add2 _ _ _ _ _ (add2 _ _ _ _ _ h1 h2 hs) h3 hs')) (fun _ => trivial))
          (fun _ _ _ => E _) T) (fun _ => trivial)) (fun _ _ _ => Sat.some h1)
        T) (fun _ _ _ => E _) id
    case enclose =>
      exact sat_caseR (I0 _ (.inl rfl)) (fun s1 o1 h1 => sat_caseR (I _ o1 (.inr (.inl rfl)))
        (fun _ o2 h2 => sat_addK (fun _ hs => sat_caseR (I _ o2 (.inr (.inr rfl)))
          (fun _ _ h3 => sat_addK
            (fun _ hs' => Sat.some (add2 _ _ _ _ _ (add2 _ _ _ _ _ h1 h2 hs) h3 hs')) (fun _ => trivial))
          (fun _ _ _ => E _) T) (fun _ => trivial)) (fun _ _ _ => E _)
        T) (fun _ _ _ => E _) id
    case sepOnce =>
      have h0 : CalmAt o (.ok ⟨o, 0⟩ o) := fun _ => rfl
      exact sat_caseR (I0 _ (.inl rfl)) (fun s1 o1 h1 => sat_addK (fun _ hs0 =>
        sat_caseR (I _ o1 (.inr (.inl rfl)))
        (fun _ o2 h2 => sat_addK (fun _ hs => sat_caseR (I _ o2 (.inr (.inr rfl)))
          (fun _ _ h3 => sat_addK
            (fun _ hs' => Sat.some (add2 _ _ _ _ _
              (add2 _ _ _ _ _ (add2 _ _ _ _ _ h0 (fun _ => h1) hs0) h2 hs) h3 hs')) (fun _ => trivial))
          (fun _ _ _ => E _) T) (fun _ => trivial)) (fun _ _ _ => E _)
        T) (fun _ => trivial)) (fun _ _ _ => E _) id
    case or =>
      exact sat_caseR (I0 _ (.inl rfl)) (fun _ _ h1 => Sat.some h1) (fun _ _ _ =>
        sat_caseR (I0 _ (.inr rfl)) (fun _ _ h2 => Sat.some h2) (fun _ _ _ => E _) id) id
    case longest =>
      have L : ∀ (s : Span), Sat (some (.ok s (o + s.len))) (CalmAt o) :=
        fun s => Sat.some fun hl => by omega
      exact sat_caseR (I0 _ (.inl rfl)) (fun _ _ h1 => sat_caseR (I0 _ (.inr rfl))
        (fun _ _ h2 => sat_ite (fun _ => L _) (fun _ => L _)) (fun _ _ _ => L _)
        id) (fun _ _ _ => sat_caseR (I0 _ (.inr rfl)) (fun _ _ h2 => L _)
        (fun _ _ _ => E _) id) id
    case opt =>
      exact sat_caseR (I0 _ rfl) (fun _ _ h1 => Sat.some h1) (fun _ _ _ => K _ _ fun _ => rfl) id
    case choice e items =>
      refine sat_choiceLoop items (fun it hit => (I0 _ ⟨it, hit, rfl⟩).imp fun r hr => ?_) rfl
      cases r
      · exact hr
      · trivial
      · trivial
    case ltm e items => exact absurd h.self id
    case rep => exact loopR _ _ _ _ rfl
    case rep2 => exact loopR _ _ _ _ rfl
    case collect => exact loopR _ _ _ _ rfl
    case sep =>
      have hs := h.self; simp only [Tidy] at hs; subst hs
      exact loopS _ _ _ _ _ (.inl rfl) (.inr rfl)
    case sep2 =>
      have hs := h.self; simp only [Tidy] at hs; subst hs
      exact loopS _ _ _ _ _ (.inl rfl) (.inr rfl)
    case sepCollect =>
      have hs := h.self; simp only [Tidy] at hs; subst hs
      exact loopS _ _ _ _ _ (.inl rfl) (.inr rfl)
    case branch =>
      refine sat_caseO (sat_true _) (fun t _ => sat_caseR (P := CalmAt o) ?_
        (fun _ _ h1 => Sat.some h1) (fun _ _ _ => E _) id) (fun _ _ => E _) P
      cases t
      · exact I0 _ (.inr rfl)
      · exact I0 _ (.inl rfl)
    case map => exact I0 _ rfl
    case pat => exact I0 _ rfl
    case build q f => exact absurd h.self id
    case dthen => exact Sat.some trivial
    case cell i =>
      split
      · exact E _
      · next q hq => exact ih q (h.child hq)

end Neure
