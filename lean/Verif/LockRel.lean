import Verif.Locks
import Verif.ImpLemmas
import Verif.Sub
/-!
# Programs that write down lock operations, against programs that do not

`LRel`: one program writes lock operations, the other is the same without; what is
written satisfies `W`; the other may give up (`none`) where what is written is not
`F`.  All bodies of `Imp.lean` preserve this.
-/

namespace Neure

set_option linter.unusedSectionVars false

variable {ι β σ α γ : Type} [Item ι]

/-- What may be written (`W`), and when the other program goes on (`F`). -/
structure Words where
  W : List Ev → Prop
  F : List Ev → Prop
  /-- may the other program give up where this one panics? -/
  Q : Prop
  nil : W []
  fnil : F []
  app : ∀ u v, W u → W v → W (u ++ v)
  fapp : ∀ u v, W u → (F (u ++ v) ↔ F u ∧ F v)
  give : Q ∨ ∀ u, F u

variable {X : Words}

def LRel (X : Words) (x : M (σ × List Ev) α) (y : M σ α) : Prop := ∀ s l o,
  match x (s, l) o with
  | none => y s o = none
  | some .panic => y s o = some .panic ∨ (X.Q ∧ y s o = none)
  | some (.done a st' o') => ∃ w, st'.2 = l ++ w ∧ X.W w ∧
      (X.F w → y s o = some (.done a st'.1 o')) ∧ (¬ X.F w → y s o = none)

def GRel (X : Words) (x : GM (σ × List Ev) α) (y : GM σ α) : Prop := ∀ g s l o,
  match x g (s, l) o with
  | none => y g s o = none
  | some .panic => y g s o = some .panic ∨ (X.Q ∧ y g s o = none)
  | some (.done r g' st' o') => ∃ w, st'.2 = l ++ w ∧ X.W w ∧
      (X.F w → y g s o = some (.done r g' st'.1 o')) ∧ (¬ X.F w → y g s o = none)

theorem Words.q_of (X : Words) {u : List Ev} (h : ¬ X.F u) : X.Q := by
  rcases X.give with hq | hf
  · exact hq
  · exact absurd (hf u) h

/-! ## Programs that write nothing -/

/-- The same program with the lock operations passed through. -/
def through (y : M σ α) : M (σ × List Ev) α := fun st o => match y st.1 o with
  | none => none
  | some .panic => some .panic
  | some (.done a s' o') => some (.done a (s', st.2) o')

theorem lrel_through (y : M σ α) : LRel X (through y) y := by
  intro s l o
  simp only [through]
  rcases h : y s o with _ | (⟨a, s', o'⟩ | _)
  · exact rfl
  · exact ⟨[], by simp, X.nil, fun _ => rfl, fun hf => absurd X.fnil hf⟩
  · exact .inl rfl

theorem lrel_of_through {x : M (σ × List Ev) α} {y : M σ α} (h : x = through y) : LRel X x y :=
  h ▸ lrel_through y

theorem lrel_pure (a : α) : LRel X (pure a : M (σ × List Ev) α) (pure a : M σ α) :=
  lrel_of_through rfl

theorem lrel_panic : LRel X (panic_ : M (σ × List Ev) α) (panic_ : M σ α) :=
  lrel_of_through rfl

theorem lrel_offset : LRel X (offset : M (σ × List Ev) Nat) (offset : M σ Nat) :=
  lrel_of_through rfl

theorem lrel_setOffset (n : Nat) : LRel X (setOffset n : M (σ × List Ev) Unit) (setOffset n : M σ Unit) :=
  lrel_of_through rfl

theorem lrel_addAssign (s t : Span) :
    LRel X (addAssign s t : M (σ × List Ev) Span) (addAssign s t : M σ Span) := by
  simp only [addAssign]
  cases s.addAssign t <;> exact lrel_of_through rfl

theorem lrel_peekCtx (f : Nat → Out α) :
    LRel X (peekCtx f : M (σ × List Ev) _) (peekCtx f : M σ _) := by
  refine lrel_of_through (funext fun st => funext fun o => ?_)
  simp only [peekCtx, through]
  cases f o <;> rfl

theorem lrel_moveCtx (f : Nat → Res α) :
    LRel X (moveCtx f : M (σ × List Ev) _) (moveCtx f : M σ _) := by
  refine lrel_of_through (funext fun st => funext fun o => ?_)
  simp only [moveCtx, through]
  cases f o <;> rfl

theorem lrel_none : LRel X (fun _ _ => none : M (σ × List Ev) α) (fun _ _ => none : M σ α) :=
  fun _ _ _ => rfl

/-! ## Composition -/

theorem lrel_bind {x : M (σ × List Ev) α} {y : M σ α} {f : α → M (σ × List Ev) γ} {f' : α → M σ γ}
    (h : LRel X x y) (hf : ∀ a, LRel X (f a) (f' a)) : LRel X (x >>= f) (y >>= f') := by
  intro s l o
  have h := h s l o
  simp only [M.bind_app]
  generalize x (s, l) o = rx at h ⊢
  rcases rx with _ | (⟨a, ⟨s', l'⟩, o'⟩ | _)
  · simp only at h ⊢; rw [h]
  · simp only at h ⊢
    obtain ⟨w, rfl, hw, h1, h2⟩ := h
    have hf := hf a s' (l ++ w) o'
    by_cases hF : X.F w
    · rw [h1 hF]
      dsimp only
      generalize f a (s', l ++ w) o' = rf at hf ⊢
      rcases rf with _ | (⟨b, ⟨s'', l''⟩, o''⟩ | _)
      · exact hf
      · simp only at hf ⊢
        obtain ⟨v, rfl, hv, h3, h4⟩ := hf
        refine ⟨w ++ v, by simp, X.app _ _ hw hv, fun hwv => h3 ((X.fapp _ _ hw).mp hwv).2,
          fun hwv => h4 fun hv' => hwv ((X.fapp _ _ hw).mpr ⟨hF, hv'⟩)⟩
      · exact hf
    · rw [h2 hF]
      generalize f a (s', l ++ w) o' = rf at hf ⊢
      rcases rf with _ | (⟨b, ⟨s'', l''⟩, o''⟩ | _)
      · rfl
      · simp only at hf ⊢
        obtain ⟨v, rfl, hv, h3, h4⟩ := hf
        exact ⟨w ++ v, by simp, X.app _ _ hw hv, fun hwv => absurd ((X.fapp _ _ hw).mp hwv).1 hF,
          fun _ => trivial⟩
      · exact .inr ⟨X.q_of hF, rfl⟩
  · simp only at h ⊢
    rcases h with h | ⟨hq, h⟩
    · rw [h]; exact .inl rfl
    · rw [h]; exact .inr ⟨hq, rfl⟩

theorem lrel_ite {c : Prop} [Decidable c] {x x' : M (σ × List Ev) α} {y y' : M σ α}
    (h : LRel X x y) (h' : LRel X x' y') : LRel X (if c then x else x') (if c then y else y') := by
  split <;> assumption

theorem lrel_inspectErr (ret : Except Error α) (off : Nat) :
    LRel X (inspectErr ret off : M (σ × List Ev) _) (inspectErr ret off : M σ _) := by
  cases ret
  · exact lrel_bind (lrel_setOffset _) fun _ => lrel_pure _
  · exact lrel_pure _

theorem lrel_loop {S : Type} {b : S → M (σ × List Ev) (S × Bool)} {b' : S → M σ (S × Bool)}
    (h : ∀ s, LRel X (b s) (b' s)) (n : Nat) (s : S) : LRel X (loop b n s) (loop b' n s) := by
  induction n generalizing s with
  | zero => exact lrel_none
  | succ n ih =>
    refine lrel_bind (h s) fun r => ?_
    exact lrel_ite (ih _) (lrel_pure _)

theorem lrel_forIn {T S : Type} {b : T → S → M (σ × List Ev) (S × Bool)} {b' : T → S → M σ (S × Bool)}
    (l : List T) (h : ∀ x ∈ l, ∀ s, LRel X (b x s) (b' x s)) (s : S) :
    LRel X (forIn_ b l s) (forIn_ b' l s) := by
  induction l generalizing s with
  | nil => exact lrel_pure _
  | cons x l ih =>
    refine lrel_bind (h x (List.mem_cons_self ..) s) fun r => ?_
    exact lrel_ite (ih (fun y hy => h y (List.mem_cons_of_mem _ hy)) _) (lrel_pure _)

theorem lrel_onClone {x : M (σ × List Ev) α} {y : M σ α} (h : LRel X x y) :
    LRel X (onClone x) (onClone y) := by
  intro s l o
  have h := h s l 0
  simp only [onClone]
  generalize x (s, l) 0 = rx at h ⊢
  rcases rx with _ | (⟨a, ⟨s', l'⟩, o'⟩ | _)
  · simp only at h ⊢; rw [h]
  · simp only at h ⊢
    obtain ⟨w, rfl, hw, h1, h2⟩ := h
    exact ⟨w, rfl, hw, fun hF => by rw [h1 hF], fun hF => by rw [h2 hF]⟩
  · simp only at h ⊢
    rcases h with h | ⟨hq, h⟩
    · rw [h]; exact .inl rfl
    · rw [h]; exact .inr ⟨hq, rfl⟩

/-! ## Bodies with a guard -/

theorem grel_pure (a : α) : GRel X (pure a : GM (σ × List Ev) α) (pure a : GM σ α) := by
  intro g s l o
  exact ⟨[], by simp, X.nil, fun _ => rfl, fun hf => absurd X.fnil hf⟩

theorem grel_try (r : Except Error α) : GRel X (GM.try_ r : GM (σ × List Ev) α) (GM.try_ r : GM σ α) := by
  intro g s l o
  exact ⟨[], by simp, X.nil, fun _ => rfl, fun hf => absurd X.fnil hf⟩

theorem grel_beg : GRel X (GM.beg : GM (σ × List Ev) Nat) (GM.beg : GM σ Nat) := by
  intro g s l o
  exact ⟨[], by simp, X.nil, fun _ => rfl, fun hf => absurd X.fnil hf⟩

theorem grel_processRet (r : Except Error α) :
    GRel X (GM.processRet r : GM (σ × List Ev) _) (GM.processRet r : GM σ _) := by
  intro g s l o
  exact ⟨[], by simp, X.nil, fun _ => rfl, fun hf => absurd X.fnil hf⟩

theorem grel_call {x : M (σ × List Ev) α} {y : M σ α} (h : LRel X x y) :
    GRel X (GM.call x) (GM.call y) := by
  intro g s l o
  have h := h s l o
  simp only [GM.call]
  generalize x (s, l) o = rx at h ⊢
  rcases rx with _ | (⟨a, ⟨s', l'⟩, o'⟩ | _)
  · simp only at h ⊢; rw [h]
  · simp only at h ⊢
    obtain ⟨w, rfl, hw, h1, h2⟩ := h
    exact ⟨w, rfl, hw, fun hF => by rw [h1 hF], fun hF => by rw [h2 hF]⟩
  · simp only at h ⊢
    rcases h with h | ⟨hq, h⟩
    · rw [h]; exact .inl rfl
    · rw [h]; exact .inr ⟨hq, rfl⟩

theorem grel_tryMat {x : M (σ × List Ev) (Except Error α)} {y : M σ (Except Error α)}
    (h : LRel X x y) : GRel X (GM.tryMat x) (GM.tryMat y) := by
  intro g s l o
  have h := h s l o
  simp only [GM.tryMat]
  generalize x (s, l) o = rx at h ⊢
  rcases rx with _ | (⟨a, ⟨s', l'⟩, o'⟩ | _)
  · simp only at h ⊢; rw [h]
  · simp only at h ⊢
    obtain ⟨w, rfl, hw, h1, h2⟩ := h
    exact ⟨w, rfl, hw, fun hF => by rw [h1 hF], fun hF => by rw [h2 hF]⟩
  · simp only at h ⊢
    rcases h with h | ⟨hq, h⟩
    · rw [h]; exact .inl rfl
    · rw [h]; exact .inr ⟨hq, rfl⟩

theorem grel_bind {x : GM (σ × List Ev) α} {y : GM σ α} {f : α → GM (σ × List Ev) γ} {f' : α → GM σ γ}
    (h : GRel X x y) (hf : ∀ a, GRel X (f a) (f' a)) : GRel X (x >>= f) (y >>= f') := by
  intro g s l o
  have h := h g s l o
  simp only [GM.bind_app]
  generalize x g (s, l) o = rx at h ⊢
  rcases rx with _ | (⟨r, g', ⟨s', l'⟩, o'⟩ | _)
  · simp only at h ⊢; rw [h]
  · simp only at h
    obtain ⟨w, rfl, hw, h1, h2⟩ := h
    cases r with
    | error e =>
      exact ⟨w, rfl, hw, fun hF => by rw [h1 hF], fun hF => by rw [h2 hF]⟩
    | ok a =>
      dsimp only
      have hf := hf a g' s' (l ++ w) o'
      by_cases hF : X.F w
      · rw [h1 hF]
        dsimp only
        generalize f a g' (s', l ++ w) o' = rf at hf ⊢
        rcases rf with _ | (⟨b, g'', ⟨s'', l''⟩, o''⟩ | _)
        · exact hf
        · simp only at hf ⊢
          obtain ⟨v, rfl, hv, h3, h4⟩ := hf
          refine ⟨w ++ v, by simp, X.app _ _ hw hv, fun hwv => h3 ((X.fapp _ _ hw).mp hwv).2,
            fun hwv => h4 fun hv' => hwv ((X.fapp _ _ hw).mpr ⟨hF, hv'⟩)⟩
        · exact hf
      · rw [h2 hF]
        generalize f a g' (s', l ++ w) o' = rf at hf ⊢
        rcases rf with _ | (⟨b, g'', ⟨s'', l''⟩, o''⟩ | _)
        · rfl
        · simp only at hf ⊢
          obtain ⟨v, rfl, hv, h3, h4⟩ := hf
          exact ⟨w ++ v, by simp, X.app _ _ hw hv, fun hwv => absurd ((X.fapp _ _ hw).mp hwv).1 hF,
            fun _ => trivial⟩
        · exact .inr ⟨X.q_of hF, rfl⟩
  · simp only at h ⊢
    rcases h with h | ⟨hq, h⟩
    · rw [h]; exact .inl rfl
    · rw [h]; exact .inr ⟨hq, rfl⟩

theorem grel_ite {c : Prop} [Decidable c] {x x' : GM (σ × List Ev) α} {y y' : GM σ α}
    (h : GRel X x y) (h' : GRel X x' y') : GRel X (if c then x else x') (if c then y else y') := by
  split <;> assumption

theorem lrel_guarded {x : GM (σ × List Ev) α} {y : GM σ α} (h : GRel X x y) :
    LRel X (guarded x) (guarded y) := by
  intro s l o
  have h := h ⟨o, false⟩ s l o
  simp only [guarded]
  generalize x ⟨o, false⟩ (s, l) o = rx at h ⊢
  rcases rx with _ | (⟨r, g', ⟨s', l'⟩, o'⟩ | _)
  · simp only at h ⊢; rw [h]
  · simp only at h ⊢
    obtain ⟨w, rfl, hw, h1, h2⟩ := h
    exact ⟨w, rfl, hw, fun hF => by rw [h1 hF], fun hF => by rw [h2 hF]⟩
  · simp only at h ⊢
    rcases h with h | ⟨hq, h⟩
    · rw [h]; exact .inl rfl
    · rw [h]; exact .inr ⟨hq, rfl⟩

theorem lrel_function {x : GM (σ × List Ev) α} {y : GM σ α} (h : GRel X x y) :
    LRel X (function x) (function y) := by
  intro s l o
  have h := h ⟨o, false⟩ s l o
  simp only [function]
  generalize x ⟨o, false⟩ (s, l) o = rx at h ⊢
  rcases rx with _ | (⟨r, g', ⟨s', l'⟩, o'⟩ | _)
  · simp only at h ⊢; rw [h]
  · simp only at h ⊢
    obtain ⟨w, rfl, hw, h1, h2⟩ := h
    exact ⟨w, rfl, hw, fun hF => by rw [h1 hF], fun hF => by rw [h2 hF]⟩
  · simp only at h ⊢
    rcases h with h | ⟨hq, h⟩
    · rw [h]; exact .inl rfl
    · rw [h]; exact .inr ⟨hq, rfl⟩

theorem grel_moved {f : Nat → Res α} {k : α → GM (σ × List Ev) γ} {k' : α → GM σ γ}
    (h : ∀ o a o', f o = .ok a o' → GRel X (k a) (k' a)) :
    GRel X (GM.call (moveCtx f) >>= fun r => GM.try_ r >>= k)
      (GM.call (moveCtx f) >>= fun r => GM.try_ r >>= k') := by
  intro g st l o
  have h := h o
  simp only [GM.bind_app, GM.call, moveCtx, GM.try_]
  rcases hfo : f o with ⟨p, o'⟩ | ⟨e, o'⟩ | _
  · exact h _ _ hfo g st l o'
  · exact ⟨[], by simp, X.nil, fun _ => rfl, fun hf => absurd X.fnil hf⟩
  · exact .inl rfl

/-! ## Leaves -/

theorem lrel_remaining (d : List ι) : LRel X (remaining d : M (σ × List Ev) Nat) (remaining d) :=
  lrel_bind lrel_offset fun _ => lrel_ite (lrel_pure _) lrel_panic

theorem lrel_spanInc (n : Nat) : LRel X (spanInc n : M (σ × List Ev) Span) (spanInc n) :=
  lrel_bind lrel_offset fun _ => lrel_bind (lrel_setOffset _) fun _ => lrel_pure _

theorem lrel_calcLen (a b : Option Nat) (n : Nat) :
    LRel X (calcLen a b n : M (σ × List Ev) Nat) (calcLen a b n) := by
  simp only [calcLen]
  cases calcLength a b n
  · exact lrel_panic
  · exact lrel_pure _

theorem lrel_setAt (vals : List (Val β)) (i : Nat) (v : Val β) :
    LRel X (setAt vals i v : M (σ × List Ev) _) (setAt vals i v) :=
  lrel_ite (lrel_pure _) lrel_panic

attribute [irreducible] LRel GRel

/-- Take a body apart. -/
macro "lrel" : tactic => `(tactic| repeat' (first
  | assumption
  | exact lrel_pure _ | exact lrel_offset | exact lrel_setOffset _ | exact lrel_addAssign _ _
  | exact lrel_peekCtx _ | exact lrel_moveCtx _ | exact lrel_panic | exact lrel_inspectErr _ _
  | exact lrel_remaining _ | exact lrel_spanInc _ | exact lrel_calcLen _ _ _ | exact lrel_setAt _ _ _
  | exact grel_pure _ | exact grel_try _ | exact grel_beg | exact grel_processRet _
  | apply grel_bind | apply lrel_bind | apply grel_call | apply grel_tryMat
  | apply lrel_guarded | apply lrel_function
  | apply grel_ite | apply lrel_ite | apply lrel_onClone | apply lrel_loop
  | (intro r; first | (cases r; done) | skip)))

end Neure
