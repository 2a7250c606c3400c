import Verif.ImpLemmas
/-!
# Running the same bodies over two kinds of handler state

The bodies of `Imp.lean` never look at the handler's state: related states and
related callbacks give related results.
-/

namespace Neure

set_option linter.unusedSectionVars false

variable {σ τ α γ : Type} {S : σ → τ → Prop}

/-- Unless the first gives up for want of fuel, the second ends the same way, at the
same offset, with a related state. -/
def RRel (S : σ → τ → Prop) (x : Option (MRes σ α)) (y : Option (MRes τ α)) : Prop :=
  match x with
  | none => True
  | some .panic => y = some .panic
  | some (.done a s o) => ∃ t, y = some (.done a t o) ∧ S s t

def MRel (S : σ → τ → Prop) (x : M σ α) (y : M τ α) : Prop :=
  ∀ s t o, S s t → RRel S (x s o) (y t o)

def GRRel (S : σ → τ → Prop) (x : Option (GRes σ α)) (y : Option (GRes τ α)) : Prop :=
  match x with
  | none => True
  | some .panic => y = some .panic
  | some (.done a g s o) => ∃ t, y = some (.done a g t o) ∧ S s t

def GMRel (S : σ → τ → Prop) (x : GM σ α) (y : GM τ α) : Prop :=
  ∀ g s t o, S s t → GRRel S (x g s o) (y g t o)

namespace MRel

theorem pure_ (a : α) : MRel S (pure a) (pure a) := fun _ t _ h => ⟨t, rfl, h⟩

theorem bind_ {x : M σ α} {y : M τ α} {f : α → M σ γ} {g : α → M τ γ} (h : MRel S x y)
    (hf : ∀ a, MRel S (f a) (g a)) : MRel S (x >>= f) (y >>= g) := by
  intro s t o hs
  have := h s t o hs
  rw [M.bind_app, M.bind_app]
  cases hx : x s o with
  | none => trivial
  | some v => cases v with
    | panic => rw [hx] at this; rw [this]; exact rfl
    | done a s' o' =>
      rw [hx] at this
      obtain ⟨t', e, h'⟩ := this
      rw [e]; exact hf a s' t' o' h'

theorem offset_ : MRel S offset offset := fun _ t _ h => ⟨t, rfl, h⟩
theorem setOffset_ (n : Nat) : MRel S (setOffset n) (setOffset n) := fun _ t _ h => ⟨t, rfl, h⟩
theorem panic__ : MRel S (panic_ (α := α)) panic_ := fun _ _ _ _ => rfl
theorem peekCtx_ (f : Nat → Out α) : MRel S (peekCtx f) (peekCtx f) := by
  intro s t o h
  unfold peekCtx
  cases f o with
  | ok a => exact ⟨t, rfl, h⟩
  | err e => exact ⟨t, rfl, h⟩
  | panic => exact rfl
theorem moveCtx_ (f : Nat → Res α) : MRel S (moveCtx f) (moveCtx f) := by
  intro s t o h
  unfold moveCtx
  cases f o with
  | ok a o' => exact ⟨t, rfl, h⟩
  | err e o' => exact ⟨t, rfl, h⟩
  | panic => exact rfl

theorem addAssign_ (a b : Span) : MRel S (addAssign a b) (addAssign a b) := by
  unfold addAssign; split
  · exact pure_ _
  · exact panic__

theorem inspectErr_ (r : Except Error α) (n : Nat) : MRel S (inspectErr r n) (inspectErr r n) := by
  unfold inspectErr
  cases r with
  | ok a => exact pure_ _
  | error e => exact bind_ (setOffset_ n) fun _ => pure_ _

theorem loop_ {T : Type} {body : T → M σ (T × Bool)} {body' : T → M τ (T × Bool)}
    (h : ∀ a, MRel S (body a) (body' a)) : ∀ {n m : Nat} (_ : n ≤ m) (a : T),
    MRel S (loop body n a) (loop body' m a)
  | 0, _, _, _ => fun _ _ _ _ => trivial
  | n + 1, 0, hn, _ => by omega
  | n + 1, m + 1, hn, a => by
    unfold loop
    refine bind_ (h a) fun ⟨a', more⟩ => ?_
    cases more with
    | true => exact loop_ h (by omega) a'
    | false => exact pure_ _

theorem forIn__ {T A : Type} {body : T → A → M σ (A × Bool)} {body' : T → A → M τ (A × Bool)}
    (h : ∀ x a, MRel S (body x a) (body' x a)) : ∀ (l : List T) (a : A),
    MRel S (forIn_ body l a) (forIn_ body' l a)
  | [], _ => pure_ _
  | x :: l, a => by
    unfold forIn_
    refine bind_ (h x a) fun ⟨a', more⟩ => ?_
    cases more with
    | true => exact forIn__ h l a'
    | false => exact pure_ _

theorem guarded_ {x : GM σ α} {y : GM τ α} (h : GMRel S x y) : MRel S (guarded x) (guarded y) := by
  intro s t o hs
  have := h ⟨o, false⟩ s t o hs
  unfold guarded
  cases hx : x ⟨o, false⟩ s o with
  | none => trivial
  | some v => cases v with
    | panic => rw [hx] at this; rw [this]; exact rfl
    | done a g s' o' =>
      rw [hx] at this
      obtain ⟨t', e, h'⟩ := this
      rw [e]; exact ⟨t', rfl, h'⟩

theorem function_ {x : GM σ α} {y : GM τ α} (h : GMRel S x y) : MRel S (function x) (function y) := by
  intro s t o hs
  have := h ⟨o, false⟩ s t o hs
  unfold function
  cases hx : x ⟨o, false⟩ s o with
  | none => trivial
  | some v => cases v with
    | panic => rw [hx] at this; rw [this]; exact rfl
    | done a g s' o' =>
      rw [hx] at this
      obtain ⟨t', e, h'⟩ := this
      rw [e]; exact ⟨t', rfl, h'⟩

theorem onClone_ {x : M σ α} {y : M τ α} (h : MRel S x y) : MRel S (onClone x) (onClone y) := by
  intro s t o hs
  have := h s t 0 hs
  unfold onClone
  cases hx : x s 0 with
  | none => trivial
  | some v => cases v with
    | panic => rw [hx] at this; rw [this]; exact rfl
    | done a s' o' =>
      rw [hx] at this
      obtain ⟨t', e, h'⟩ := this
      rw [e]; exact ⟨t', rfl, h'⟩

end MRel

namespace GMRel

theorem pure_ (a : α) : GMRel S (pure a) (pure a) := fun _ _ t _ h => ⟨t, rfl, h⟩

theorem bind_ {x : GM σ α} {y : GM τ α} {f : α → GM σ γ} {g : α → GM τ γ} (h : GMRel S x y)
    (hf : ∀ a, GMRel S (f a) (g a)) : GMRel S (x >>= f) (y >>= g) := by
  intro gd s t o hs
  have := h gd s t o hs
  rw [GM.bind_app, GM.bind_app]
  cases hx : x gd s o with
  | none => trivial
  | some v => cases v with
    | panic => rw [hx] at this; rw [this]; exact rfl
    | done a g' s' o' =>
      rw [hx] at this
      obtain ⟨t', e, h'⟩ := this
      rw [e]
      cases a with
      | ok a => exact hf a g' s' t' o' h'
      | error e => exact ⟨t', rfl, h'⟩

theorem call_ {x : M σ α} {y : M τ α} (h : MRel S x y) : GMRel S (GM.call x) (GM.call y) := by
  intro gd s t o hs
  have := h s t o hs
  unfold GM.call
  cases hx : x s o with
  | none => trivial
  | some v => cases v with
    | panic => rw [hx] at this; rw [this]; exact rfl
    | done a s' o' =>
      rw [hx] at this
      obtain ⟨t', e, h'⟩ := this
      rw [e]; exact ⟨t', rfl, h'⟩

theorem tryMat_ {x : M σ (Except Error α)} {y : M τ (Except Error α)} (h : MRel S x y) :
    GMRel S (GM.tryMat x) (GM.tryMat y) := by
  intro gd s t o hs
  have := h s t o hs
  unfold GM.tryMat
  cases hx : x s o with
  | none => trivial
  | some v => cases v with
    | panic => rw [hx] at this; rw [this]; exact rfl
    | done a s' o' =>
      rw [hx] at this
      obtain ⟨t', e, h'⟩ := this
      rw [e]; exact ⟨t', rfl, h'⟩

theorem try__ (r : Except Error α) : GMRel S (GM.try_ r) (GM.try_ r) := fun _ _ t _ h => ⟨t, rfl, h⟩
theorem beg_ : GMRel S GM.beg GM.beg := fun _ _ t _ h => ⟨t, rfl, h⟩
theorem processRet_ (r : Except Error α) : GMRel S (GM.processRet r) (GM.processRet r) :=
  fun _ _ t _ h => ⟨t, rfl, h⟩

end GMRel

/-- Follow the two bodies side by side. -/
syntax "mrel" : tactic
macro_rules
  | `(tactic| mrel) => `(tactic| repeat' (first
      | assumption
      | (apply_assumption; done)
      | exact MRel.pure_ _ | exact GMRel.pure_ _
      | exact MRel.offset_ | exact MRel.setOffset_ _ | exact MRel.panic__
      | exact MRel.peekCtx_ _ | exact MRel.moveCtx_ _ | exact MRel.addAssign_ _ _
      | exact MRel.inspectErr_ _ _
      | exact GMRel.try__ _ | exact GMRel.beg_ | exact GMRel.processRet_ _
      | apply MRel.bind_ | apply GMRel.bind_
      | apply GMRel.call_ | apply GMRel.tryMat_
      | apply MRel.guarded_ | apply MRel.function_ | apply MRel.onClone_
      | apply MRel.loop_ | apply MRel.forIn__
      | (with_reducible intro _)
      | split))

section
variable {ι β : Type} [Item ι]

section Leaves
variable {mt : List ι → Pat ι β → M σ (Except Error Span)} {mt' : List ι → Pat ι β → M τ (Except Error Span)}
  (hm : ∀ d q, MRel S (mt d q) (mt' d q)) {d : List ι}
include hm

theorem MRel.remaining_ : MRel S (remaining d) (remaining d) := by unfold remaining; mrel
theorem MRel.spanInc_ (n : Nat) : MRel S (spanInc n) (spanInc n) := by unfold spanInc; mrel
theorem MRel.calcLen_ (a b : Option Nat) (r : Nat) : MRel S (calcLen a b r) (calcLen a b r) := by
  unfold calcLen; mrel

theorem rel_check (c : Cond ι β) (it : Nat × ι) : MRel S (Imp.check mt d c it) (Imp.check mt' d c it) := by
  unfold Imp.check; mrel

theorem rel_test (u : Neu ι) (c : Cond ι β) (it : Nat × ι) :
    GMRel S (Imp.test mt d u c it) (Imp.test mt' d u c it) := by
  have := rel_check hm (d := d) c it
  unfold Imp.test; mrel


theorem rel_scanAll (u : Neu ι) (c : Cond ι β) : ∀ (it : List (Nat × ι)) (b : Option Nat),
    GMRel S (Imp.scanAll mt d u c it b) (Imp.scanAll mt' d u c it b)
  | [], b => GMRel.pure_ _
  | pr :: it, b => by
    have h1 := rel_test hm (d := d) u c pr
    have h2 := rel_scanAll u c it
    unfold Imp.scanAll; mrel

theorem rel_scanWhile (u : Neu ι) (c : Cond ι β) (more : Nat → Bool) : ∀ (it : List (Nat × ι)) (n : Nat)
    (b : Option Nat), GMRel S (Imp.scanWhile mt d u c more it n b) (Imp.scanWhile mt' d u c more it n b)
  | [], n, b => GMRel.pure_ _
  | pr :: it, n, b => by
    have h1 := rel_test hm (d := d) u c pr
    have h2 := rel_scanWhile u c more it
    unfold Imp.scanWhile; mrel

theorem rel_leaf (u v : Neu ι) (c : Cond ι β) (r : CRange) (m n : Nat) :
    MRel S (Imp.once mt d u c) (Imp.once mt' d u c) ∧
    MRel S (Imp.optU mt d u c) (Imp.optU mt' d u c) ∧
    MRel S (Imp.many0 mt d u c) (Imp.many0 mt' d u c) ∧
    MRel S (Imp.many1 mt d u c) (Imp.many1 mt' d u c) ∧
    MRel S (Imp.between mt d m n u c) (Imp.between mt' d m n u c) ∧
    MRel S (Imp.times mt d r u c) (Imp.times mt' d r u c) ∧
    MRel S (Imp.thenU mt d u v c) (Imp.thenU mt' d u v c) := by
  have h1 := rel_test hm (d := d)
  have h2 := rel_scanAll hm (d := d)
  have h3 := rel_scanWhile hm (d := d)
  have h4 := MRel.remaining_ hm (d := d)
  have h5 := MRel.spanInc_ hm
  have h6 := MRel.calcLen_ hm
  refine ⟨?_, ?_, ?_, ?_, ?_, ?_, ?_⟩
  · unfold Imp.once; mrel
  · unfold Imp.optU; mrel
  · unfold Imp.many0; mrel
  · unfold Imp.many1; mrel
  · unfold Imp.between; mrel
  · unfold Imp.times; mrel
  · unfold Imp.thenU; mrel

theorem rel_step {G : Rules ι β} {n m : Nat} (hn : n ≤ m) {pr : Pat ι β → M σ (Except Error Span)}
    {pr' : Pat ι β → M τ (Except Error Span)} (hp : ∀ q, MRel S (pr q) (pr' q)) (p : Pat ι β) :
    MRel S (impStep G n mt pr d p) (impStep G m mt' pr' d p) := by
  have h4 := MRel.remaining_ hm (d := d)
  have h5 := MRel.spanInc_ hm
  cases p with
  | empty => simp only [impStep, Imp.empty]; mrel
  | fail => simp only [impStep, Imp.fail]; mrel
  | start => simp only [impStep, Imp.start]; mrel
  | anchorEnd => simp only [impStep, Imp.anchorEnd]; mrel
  | consume n => simp only [impStep, Imp.consume]; mrel
  | consumeAll => simp only [impStep, Imp.consumeAll]; mrel
  | lit l => simp only [impStep, Imp.lit]; mrel
  | native f => simp only [impStep]; mrel
  | once u c => exact (rel_leaf hm u u c ⟨.unb, .unb⟩ 0 0).1
  | optU u c => exact (rel_leaf hm u u c ⟨.unb, .unb⟩ 0 0).2.1
  | many0 u c => exact (rel_leaf hm u u c ⟨.unb, .unb⟩ 0 0).2.2.1
  | many1 u c => exact (rel_leaf hm u u c ⟨.unb, .unb⟩ 0 0).2.2.2.1
  | between m n u c => exact (rel_leaf hm u u c ⟨.unb, .unb⟩ m n).2.2.2.2.1
  | times r u c => exact (rel_leaf hm u u c r 0 0).2.2.2.2.2.1
  | thenU u v c => exact (rel_leaf hm u v c ⟨.unb, .unb⟩ 0 0).2.2.2.2.2.2
  | assert q v => simp only [impStep, Imp.assert]; mrel
  | thn a b => simp only [impStep, Imp.thn]; mrel
  | ifThen a t b => simp only [impStep, Imp.ifThen]; mrel
  | pre a b => simp only [impStep, Imp.pre]; mrel
  | suf a b => simp only [impStep, Imp.suf]; mrel
  | enclose a b c => simp only [impStep, Imp.enclose]; mrel
  | sepOnce a b c => simp only [impStep, Imp.sepOnce]; mrel
  | or a b => simp only [impStep, Imp.or]; mrel
  | longest a b => simp only [impStep, Imp.longest]; mrel
  | opt q => simp only [impStep, Imp.opt]; mrel
  | choice e items => simp only [impStep, Imp.choice]; mrel
  | ltm e items => simp only [impStep, Imp.ltm]; mrel
  | rep q r => simp only [impStep, Imp.rep]; mrel
  | rep2 q m n => simp only [impStep, Imp.rep2]; mrel
  | collect q min => simp only [impStep, Imp.collect]; mrel
  | sep q s skip min => simp only [impStep, Imp.sep, Imp.sepBody]; mrel
  | sep2 q s skip m n => simp only [impStep, Imp.sep2, Imp.sepBody]; mrel
  | sepCollect q s skip min => simp only [impStep, Imp.sepCollect, Imp.sepBody]; mrel
  | branch test a b => simp only [impStep, Imp.branch]; mrel
  | map q f => exact hm d q
  | pat q => exact hm d q
  | build q f => simp only [impStep, Imp.build]; mrel
  | dthen q f => simp only [impStep]; mrel
  | cell i => simp only [impStep]; mrel

end Leaves

theorem rel_mat {pr : Option (Pat ι β) → List ι → Pat ι β → M σ (Except Error Span)}
    {pr' : Option (Pat ι β) → List ι → Pat ι β → M τ (Except Error Span)}
    (h : ∀ pol d q, MRel S (pr pol d q) (pr' pol d q)) (pol : Option (Pat ι β)) (d : List ι) (p : Pat ι β) :
    MRel S (impMat pr pol d p) (impMat pr' pol d p) := by
  unfold impMat; mrel

theorem rel_invoke {H : Handler ι β σ} {H' : Handler ι β τ} {d : List ι}
    (hH : ∀ o sp s t, S s t → (H d o sp s).1 = (H' d o sp t).1 ∧ S (H d o sp s).2 (H' d o sp t).2)
    {x : M σ (Except Error Span)} {y : M τ (Except Error Span)} (h : MRel S x y) :
    MRel S (Imp.invoke H d x) (Imp.invoke H' d y) := by
  unfold Imp.invoke
  refine MRel.bind_ h fun r => ?_
  cases r with
  | error e => exact MRel.pure_ _
  | ok sp =>
    intro s t o hs
    have := hH o sp s t hs
    show RRel S (match H d o sp s with | (.ok b, st') => _ | (.err e, st') => _ | (.panic, _) => _)
      (match H' d o sp t with | (.ok b, st') => _ | (.err e, st') => _ | (.panic, _) => _)
    generalize H d o sp s = a at this
    generalize H' d o sp t = b at this
    obtain ⟨a1, a2⟩ := a
    obtain ⟨b1, b2⟩ := b
    obtain ⟨h1, h2⟩ := this
    simp only at h1 h2
    subst h1
    cases a1 with
    | ok v => exact ⟨_, rfl, h2⟩
    | err e => exact ⟨_, rfl, h2⟩
    | panic => exact rfl

theorem rel_conStep {G : Rules ι β} {H : Handler ι β σ} {H' : Handler ι β τ} {d : List ι}
    (hH : ∀ o sp s t, S s t → (H d o sp s).1 = (H' d o sp t).1 ∧ S (H d o sp s).2 (H' d o sp t).2)
    {mt : Pat ι β → M σ (Except Error Span)} {mt' : Pat ι β → M τ (Except Error Span)}
    (hm : ∀ q, MRel S (mt q) (mt' q)) {x : M σ (Except Error Span)} {y : M τ (Except Error Span)}
    (hx : MRel S x y) {cn : Pat ι β → M σ (Except Error (Val β))} {cn' : Pat ι β → M τ (Except Error (Val β))}
    (hc : ∀ q, MRel S (cn q) (cn' q)) {n m : Nat} (hn : n ≤ m) (p : Pat ι β) :
    MRel S (impConStep G H n mt x cn d p) (impConStep G H' m mt' y cn' d p) := by
  have hi := rel_invoke hH hx
  have hs : ∀ (l : List (Val β)) i v, MRel S (setAt l i v) (setAt l i v) := by
    intro l i v; unfold setAt; mrel
  cases p with
  | pat q => exact rel_invoke hH (hm q)
  | thn a b => simp only [impConStep, Imp.thnC]; mrel
  | ifThen a t b => simp only [impConStep, Imp.ifThenC]; mrel
  | pre a b => simp only [impConStep, Imp.preC]; mrel
  | suf a b => simp only [impConStep, Imp.sufC]; mrel
  | enclose a b c => simp only [impConStep, Imp.encloseC]; mrel
  | sepOnce a b c => simp only [impConStep, Imp.sepOnceC]; mrel
  | or a b => simp only [impConStep, Imp.orC]; mrel
  | longest a b => simp only [impConStep, Imp.longestC]; mrel
  | opt q => simp only [impConStep, Imp.optC]; mrel
  | choice e items => simp only [impConStep, Imp.choiceC]; mrel
  | ltm e items => simp only [impConStep, Imp.ltmC]; mrel
  | rep q r => simp only [impConStep, Imp.repC]; mrel
  | rep2 q m n => simp only [impConStep, Imp.rep2C]; mrel
  | collect q min => simp only [impConStep, Imp.collectC]; mrel
  | sep q s skip min => simp only [impConStep, Imp.sepC]; mrel
  | sep2 q s skip m n => simp only [impConStep, Imp.sep2C]; mrel
  | sepCollect q s skip min => simp only [impConStep, Imp.sepCollectC]; mrel
  | branch test a b => simp only [impConStep, Imp.branchC]; mrel
  | map q f => simp only [impConStep, Imp.mapC]; mrel
  | dthen q f => simp only [impConStep, Imp.dthenC]; mrel
  | cell i => simp only [impConStep]; mrel
  | _ => exact hi

end

end Neure
