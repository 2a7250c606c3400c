import Verif.ImpLemmas
import Verif.Sub
/-!
# Relations between programs that all bodies preserve

`Cong`: a relation between programs that is preserved by the statements the bodies
of `Imp.lean` are made of.  Then it is preserved by all bodies.
-/

namespace Neure

set_option linter.unusedSectionVars false

/-- A relation between programs, one for each type of result, and one between bodies
that hold a guard, preserved by everything the bodies are made of. -/
structure Cong (σ τ : Type) where
  R : {α : Type} → M σ α → M τ α → Prop
  GR : {α : Type} → GM σ α → GM τ α → Prop
  pure_ : ∀ {α : Type} (a : α), R (pure a) (pure a)
  panic : ∀ {α : Type}, R (panic_ (α := α)) panic_
  offset_ : R offset offset
  setOffset_ : ∀ n, R (setOffset n) (setOffset n)
  peekCtx_ : ∀ {α : Type} (f : Nat → Out α), R (peekCtx f) (peekCtx f)
  moveCtx_ : ∀ {α : Type} (f : Nat → Res α), R (moveCtx f) (moveCtx f)
  none_ : ∀ {α : Type}, R (fun _ _ => none : M σ α) (fun _ _ => none : M τ α)
  bind_ : ∀ {α γ : Type} {x : M σ α} {y : M τ α} {f : α → M σ γ} {f' : α → M τ γ},
    R x y → (∀ a, R (f a) (f' a)) → R (x >>= f) (y >>= f')
  onClone_ : ∀ {α : Type} {x : M σ α} {y : M τ α}, R x y → R (onClone x) (onClone y)
  gpure : ∀ {α : Type} (a : α), GR (pure a) (pure a)
  gtry : ∀ {α : Type} (r : Except Error α), GR (GM.try_ r) (GM.try_ r)
  gbeg : GR GM.beg GM.beg
  gprocessRet : ∀ {α : Type} (r : Except Error α), GR (GM.processRet r) (GM.processRet r)
  gcall : ∀ {α : Type} {x : M σ α} {y : M τ α}, R x y → GR (GM.call x) (GM.call y)
  gtryMat : ∀ {α : Type} {x : M σ (Except Error α)} {y : M τ (Except Error α)},
    R x y → GR (GM.tryMat x) (GM.tryMat y)
  gbind : ∀ {α γ : Type} {x : GM σ α} {y : GM τ α} {f : α → GM σ γ} {f' : α → GM τ γ},
    GR x y → (∀ a, GR (f a) (f' a)) → GR (x >>= f) (y >>= f')
  guarded_ : ∀ {α : Type} {x : GM σ α} {y : GM τ α}, GR x y → R (guarded x) (guarded y)
  function_ : ∀ {α : Type} {x : GM σ α} {y : GM τ α}, GR x y → R (function x) (function y)
  gmoved : ∀ {α γ : Type} {f : Nat → Res α} {k : α → GM σ γ} {k' : α → GM τ γ},
    (∀ o a o', f o = .ok a o' → GR (k a) (k' a)) →
    GR (GM.call (moveCtx f) >>= fun r => GM.try_ r >>= k)
      (GM.call (moveCtx f) >>= fun r => GM.try_ r >>= k')

variable {ι β σ τ α γ : Type} [Item ι] {C : Cong σ τ}

/-! ## The statements -/

theorem crel_pure (a : α) : C.R (pure a) (pure a) := C.pure_ a
theorem crel_panic : C.R (panic_ (α := α)) panic_ := C.panic
theorem crel_offset : C.R offset offset := C.offset_
theorem crel_setOffset (n : Nat) : C.R (setOffset n) (setOffset n) := C.setOffset_ n
theorem crel_peekCtx (f : Nat → Out α) : C.R (peekCtx f) (peekCtx f) := C.peekCtx_ f
theorem crel_moveCtx (f : Nat → Res α) : C.R (moveCtx f) (moveCtx f) := C.moveCtx_ f
theorem crel_none : C.R (fun _ _ => none : M σ α) (fun _ _ => none : M τ α) := C.none_
theorem crel_bind {x : M σ α} {y : M τ α} {f : α → M σ γ} {f' : α → M τ γ}
    (h : C.R x y) (hf : ∀ a, C.R (f a) (f' a)) : C.R (x >>= f) (y >>= f') := C.bind_ h hf
theorem crel_onClone {x : M σ α} {y : M τ α} (h : C.R x y) : C.R (onClone x) (onClone y) := C.onClone_ h
theorem cgrel_pure (a : α) : C.GR (pure a) (pure a) := C.gpure a
theorem cgrel_try (r : Except Error α) : C.GR (GM.try_ r) (GM.try_ r) := C.gtry r
theorem cgrel_beg : C.GR GM.beg GM.beg := C.gbeg
theorem cgrel_processRet (r : Except Error α) : C.GR (GM.processRet r) (GM.processRet r) := C.gprocessRet r
theorem cgrel_call {x : M σ α} {y : M τ α} (h : C.R x y) : C.GR (GM.call x) (GM.call y) := C.gcall h
theorem cgrel_tryMat {x : M σ (Except Error α)} {y : M τ (Except Error α)} (h : C.R x y) :
    C.GR (GM.tryMat x) (GM.tryMat y) := C.gtryMat h
theorem cgrel_bind {x : GM σ α} {y : GM τ α} {f : α → GM σ γ} {f' : α → GM τ γ}
    (h : C.GR x y) (hf : ∀ a, C.GR (f a) (f' a)) : C.GR (x >>= f) (y >>= f') := C.gbind h hf
theorem crel_guarded {x : GM σ α} {y : GM τ α} (h : C.GR x y) : C.R (guarded x) (guarded y) := C.guarded_ h
theorem crel_function {x : GM σ α} {y : GM τ α} (h : C.GR x y) : C.R (function x) (function y) :=
  C.function_ h
theorem cgrel_moved {f : Nat → Res α} {k : α → GM σ γ} {k' : α → GM τ γ}
    (h : ∀ o a o', f o = .ok a o' → C.GR (k a) (k' a)) :
    C.GR (GM.call (moveCtx f) >>= fun r => GM.try_ r >>= k)
      (GM.call (moveCtx f) >>= fun r => GM.try_ r >>= k') := C.gmoved h

theorem crel_ite {c : Prop} [Decidable c] {x x' : M σ α} {y y' : M τ α}
    (h : C.R x y) (h' : C.R x' y') : C.R (if c then x else x') (if c then y else y') := by
  split <;> assumption

theorem cgrel_ite {c : Prop} [Decidable c] {x x' : GM σ α} {y y' : GM τ α}
    (h : C.GR x y) (h' : C.GR x' y') : C.GR (if c then x else x') (if c then y else y') := by
  split <;> assumption

theorem crel_addAssign (s t : Span) : C.R (addAssign s t) (addAssign s t) := by
  simp only [addAssign]
  cases s.addAssign t
  · exact crel_panic
  · exact crel_pure _

theorem crel_inspectErr (ret : Except Error α) (off : Nat) :
    C.R (inspectErr ret off) (inspectErr ret off) := by
  cases ret
  · exact crel_bind (crel_setOffset _) fun _ => crel_pure _
  · exact crel_pure _

theorem crel_loop {S : Type} {b : S → M σ (S × Bool)} {b' : S → M τ (S × Bool)}
    (h : ∀ s, C.R (b s) (b' s)) (n : Nat) (s : S) : C.R (loop b n s) (loop b' n s) := by
  induction n generalizing s with
  | zero => exact crel_none
  | succ n ih =>
    refine crel_bind (h s) fun r => ?_
    exact crel_ite (ih _) (crel_pure _)

theorem crel_forIn {T S : Type} {b : T → S → M σ (S × Bool)} {b' : T → S → M τ (S × Bool)}
    (l : List T) (h : ∀ x ∈ l, ∀ s, C.R (b x s) (b' x s)) (s : S) :
    C.R (forIn_ b l s) (forIn_ b' l s) := by
  induction l generalizing s with
  | nil => exact crel_pure _
  | cons x l ih =>
    refine crel_bind (h x (List.mem_cons_self ..) s) fun r => ?_
    exact crel_ite (ih (fun y hy => h y (List.mem_cons_of_mem _ hy)) _) (crel_pure _)

theorem crel_remaining (d : List ι) : C.R (remaining d) (remaining d) :=
  crel_bind crel_offset fun _ => crel_ite (crel_pure _) crel_panic

theorem crel_spanInc (n : Nat) : C.R (spanInc n) (spanInc n) :=
  crel_bind crel_offset fun _ => crel_bind (crel_setOffset _) fun _ => crel_pure _

theorem crel_calcLen (a b : Option Nat) (n : Nat) : C.R (calcLen a b n) (calcLen a b n) := by
  simp only [calcLen]
  cases calcLength a b n
  · exact crel_panic
  · exact crel_pure _

theorem crel_setAt (vals : List (Val β)) (i : Nat) (v : Val β) :
    C.R (setAt vals i v) (setAt vals i v) :=
  crel_ite (crel_pure _) crel_panic

/-- Take a body apart. -/
macro "crel" : tactic => `(tactic| repeat' (first
  | assumption
  | exact crel_pure _ | exact crel_offset | exact crel_setOffset _ | exact crel_addAssign _ _
  | exact crel_peekCtx _ | exact crel_moveCtx _ | exact crel_panic | exact crel_inspectErr _ _
  | exact crel_remaining _ | exact crel_spanInc _ | exact crel_calcLen _ _ _ | exact crel_setAt _ _ _
  | exact cgrel_pure _ | exact cgrel_try _ | exact cgrel_beg | exact cgrel_processRet _
  | apply cgrel_bind | apply crel_bind | apply cgrel_call | apply cgrel_tryMat
  | apply crel_guarded | apply crel_function
  | apply cgrel_ite | apply crel_ite | apply crel_onClone | apply crel_loop
  | (intro r; first | (cases r; done) | skip)))

/-! ## The bodies -/

section Leaves
variable {mt : List ι → Pat ι β → M σ (Except Error Span)}
  {mt' : List ι → Pat ι β → M τ (Except Error Span)} {d : List ι} {u v : Neu ι} {c : Cond ι β}

theorem crel_check (hm : ∀ d q, c.Has q → C.R (mt d q) (mt' d q)) (item : Nat × ι) :
    C.R (Imp.check mt d c item) (Imp.check mt' d c item) := by
  cases c with
  | empty => exact crel_pure _
  | fn f => exact crel_peekCtx _
  | regex p =>
    have h := fun d => hm d p rfl
    simp only [Imp.check]
    crel
    exact h _

theorem cgrel_test (hm : ∀ d q, c.Has q → C.R (mt d q) (mt' d q)) (item : Nat × ι) :
    C.GR (Imp.test mt d u c item) (Imp.test mt' d u c item) := by
  have h := fun item => crel_check (C := C) (d := d) hm item
  simp only [Imp.test]
  crel
  exact h _

theorem cgrel_scanAll (hm : ∀ d q, c.Has q → C.R (mt d q) (mt' d q)) (iter : List (Nat × ι))
    (beg : Option Nat) : C.GR (Imp.scanAll mt d u c iter beg) (Imp.scanAll mt' d u c iter beg) := by
  induction iter generalizing beg with
  | nil => exact cgrel_pure _
  | cons pair iter ih =>
    refine cgrel_bind (cgrel_test hm _) fun b => ?_
    exact cgrel_ite (ih _) (cgrel_pure _)

theorem cgrel_scanWhile (hm : ∀ d q, c.Has q → C.R (mt d q) (mt' d q)) (more : Nat → Bool)
    (iter : List (Nat × ι)) (cnt : Nat) (beg : Option Nat) :
    C.GR (Imp.scanWhile mt d u c more iter cnt beg) (Imp.scanWhile mt' d u c more iter cnt beg) := by
  induction iter generalizing cnt beg with
  | nil => exact cgrel_pure _
  | cons pair iter ih =>
    simp only [Imp.scanWhile]
    refine cgrel_ite (cgrel_bind (cgrel_test hm _) fun b => ?_) (cgrel_pure _)
    exact cgrel_ite (ih _ _) (cgrel_pure _)

theorem crel_once (hm : ∀ d q, c.Has q → C.R (mt d q) (mt' d q)) :
    C.R (Imp.once mt d u c) (Imp.once mt' d u c) := by
  have h := fun item => cgrel_test (C := C) (d := d) (u := u) hm item
  refine crel_function (cgrel_bind (cgrel_call (crel_peekCtx _)) fun r => cgrel_bind (cgrel_try _)
    fun iter => cgrel_bind (cgrel_call (crel_remaining _)) fun rem => ?_)
  cases iter with
  | nil => exact cgrel_try _
  | cons pair iter =>
    refine cgrel_bind (h _) fun b => ?_
    crel

theorem crel_optU (hm : ∀ d q, c.Has q → C.R (mt d q) (mt' d q)) :
    C.R (Imp.optU mt d u c) (Imp.optU mt' d u c) := by
  have h := fun item => cgrel_test (C := C) (d := d) (u := u) hm item
  refine crel_function (cgrel_bind (cgrel_call crel_offset) fun off => cgrel_bind
    (cgrel_call (crel_remaining _)) fun rem => cgrel_bind (cgrel_call (crel_peekCtx _)) fun r => ?_)
  rcases r with e | (_ | ⟨pair, iter⟩)
  · exact cgrel_pure _
  · exact cgrel_pure _
  · refine cgrel_bind (h _) fun b => ?_
    crel

theorem crel_many0 (hm : ∀ d q, c.Has q → C.R (mt d q) (mt' d q)) :
    C.R (Imp.many0 mt d u c) (Imp.many0 mt' d u c) := by
  refine crel_function (cgrel_bind (cgrel_call crel_offset) fun off => cgrel_bind
    (cgrel_call (crel_remaining _)) fun rem => cgrel_bind (cgrel_call (crel_peekCtx _)) fun r => ?_)
  rcases r with e | iter
  · exact cgrel_pure _
  · refine cgrel_bind (cgrel_scanAll hm _ _) fun r => ?_
    rcases r with ⟨_ | start, stop⟩
    · exact cgrel_pure _
    · crel

theorem crel_many1 (hm : ∀ d q, c.Has q → C.R (mt d q) (mt' d q)) :
    C.R (Imp.many1 mt d u c) (Imp.many1 mt' d u c) := by
  refine crel_function (cgrel_bind (cgrel_call (crel_peekCtx _)) fun r => cgrel_bind (cgrel_try _)
    fun iter => cgrel_bind (cgrel_call (crel_remaining _)) fun rem =>
      cgrel_bind (cgrel_scanAll hm _ _) fun r => ?_)
  rcases r with ⟨_ | start, stop⟩
  · exact cgrel_try _
  · crel

theorem crel_between (hm : ∀ d q, c.Has q → C.R (mt d q) (mt' d q)) (m n : Nat) :
    C.R (Imp.between mt d m n u c) (Imp.between mt' d m n u c) := by
  refine crel_function (cgrel_bind (cgrel_call (crel_peekCtx _)) fun r => cgrel_bind (cgrel_try _)
    fun iter => cgrel_bind (cgrel_call (crel_remaining _)) fun rem => cgrel_ite
      (cgrel_bind (cgrel_scanWhile hm _ _ _ _) fun r => ?_) (cgrel_try _))
  crel

theorem crel_times (hm : ∀ d q, c.Has q → C.R (mt d q) (mt' d q)) (r : CRange) :
    C.R (Imp.times mt d r u c) (Imp.times mt' d r u c) := by
  refine crel_function (cgrel_bind (cgrel_call (crel_peekCtx _)) fun r => cgrel_bind (cgrel_try _)
    fun iter => cgrel_bind (cgrel_call (crel_remaining _)) fun rem => cgrel_ite
      (cgrel_bind (cgrel_scanWhile hm _ _ _ _) fun r => ?_) (cgrel_try _))
  crel

theorem crel_thenU (hm : ∀ d q, c.Has q → C.R (mt d q) (mt' d q)) :
    C.R (Imp.thenU mt d u v c) (Imp.thenU mt' d u v c) := by
  have h := fun item => cgrel_test (C := C) (d := d) (u := u) hm item
  have h' := fun item => cgrel_test (C := C) (d := d) (u := v) hm item
  refine crel_function (cgrel_bind (cgrel_call (crel_peekCtx _)) fun r => cgrel_bind (cgrel_try _)
    fun iter => cgrel_bind (cgrel_call (crel_remaining _)) fun rem => cgrel_ite ?_ (cgrel_try _))
  rcases iter with _ | ⟨fst, _ | ⟨snd, iter⟩⟩
  · exact cgrel_try _
  · exact cgrel_try _
  · refine cgrel_bind (h _) fun b => cgrel_ite (cgrel_bind (h' _) fun b => ?_) (cgrel_try _)
    crel

theorem crel_lit (l : List ι) : C.R (Imp.lit d l : M σ _) (Imp.lit d l) := by
  simp only [Imp.lit]
  crel

theorem crel_consume (n : Nat) : C.R (Imp.consume d n : M σ _) (Imp.consume d n) := by
  simp only [Imp.consume]
  crel

theorem crel_consumeAll : C.R (Imp.consumeAll d : M σ _) (Imp.consumeAll d) := by
  simp only [Imp.consumeAll]
  crel

theorem crel_start : C.R (Imp.start : M σ _) Imp.start := by
  simp only [Imp.start]
  crel

theorem crel_anchorEnd : C.R (Imp.anchorEnd d : M σ _) (Imp.anchorEnd d) := by
  simp only [Imp.anchorEnd]
  crel

theorem crel_empty : C.R (Imp.empty : M σ _) Imp.empty := by
  simp only [Imp.empty]
  crel

end Leaves

section Parse
variable {mt : Pat ι β → M σ (Except Error Span)}
  {mt' : Pat ι β → M τ (Except Error Span)} {d : List ι} {q a b c t s : Pat ι β} {n : Nat}

theorem crel_assert (h : C.R (mt q) (mt' q)) (v : Bool) :
    C.R (Imp.assert mt q v) (Imp.assert mt' q v) := by
  simp only [Imp.assert]
  crel

theorem crel_thn (ha : C.R (mt a) (mt' a)) (hb : C.R (mt b) (mt' b)) :
    C.R (Imp.thn mt a b) (Imp.thn mt' a b) := by
  simp only [Imp.thn]
  crel

theorem crel_ifThen (ha : C.R (mt a) (mt' a)) (ht : C.R (mt t) (mt' t))
    (hb : C.R (mt b) (mt' b)) : C.R (Imp.ifThen mt a t b) (Imp.ifThen mt' a t b) := by
  simp only [Imp.ifThen]
  refine crel_guarded (cgrel_bind (cgrel_tryMat ha) fun r => cgrel_bind (cgrel_try _) fun ret =>
    cgrel_bind (cgrel_call ?_) fun r => ?_)
  · crel
  · cases r
    · exact cgrel_pure _
    · crel

theorem crel_pre (ha : C.R (mt a) (mt' a)) (hb : C.R (mt b) (mt' b)) :
    C.R (Imp.pre mt a b) (Imp.pre mt' a b) := by
  simp only [Imp.pre]
  crel

theorem crel_suf (ha : C.R (mt a) (mt' a)) (hb : C.R (mt b) (mt' b)) :
    C.R (Imp.suf mt a b) (Imp.suf mt' a b) := by
  simp only [Imp.suf]
  crel

theorem crel_enclose (ha : C.R (mt a) (mt' a)) (hb : C.R (mt b) (mt' b))
    (hc : C.R (mt c) (mt' c)) : C.R (Imp.enclose mt a b c) (Imp.enclose mt' a b c) := by
  simp only [Imp.enclose]
  crel

theorem crel_sepOnce (ha : C.R (mt a) (mt' a)) (hb : C.R (mt b) (mt' b))
    (hc : C.R (mt c) (mt' c)) : C.R (Imp.sepOnce mt a b c) (Imp.sepOnce mt' a b c) := by
  simp only [Imp.sepOnce]
  crel

theorem crel_or (ha : C.R (mt a) (mt' a)) (hb : C.R (mt b) (mt' b)) :
    C.R (Imp.or mt a b) (Imp.or mt' a b) := by
  simp only [Imp.or]
  refine crel_bind crel_offset fun off => crel_bind ha fun l => ?_
  cases l <;> crel

theorem crel_longest (ha : C.R (mt a) (mt' a)) (hb : C.R (mt b) (mt' b)) :
    C.R (Imp.longest mt a b) (Imp.longest mt' a b) := by
  simp only [Imp.longest]
  crel

theorem crel_opt (h : C.R (mt q) (mt' q)) : C.R (Imp.opt mt q) (Imp.opt mt' q) := by
  simp only [Imp.opt]
  refine crel_bind crel_offset fun off => crel_bind h fun l => crel_bind (crel_inspectErr _ _) fun r => ?_
  cases r <;> exact crel_pure _

theorem crel_choice (e : Error) (items : List (Pat ι β × Option (Val β)))
    (h : ∀ it ∈ items, C.R (mt it.1) (mt' it.1)) :
    C.R (Imp.choice mt e items) (Imp.choice mt' e items) := by
  refine crel_bind crel_offset fun beg => crel_forIn _ (fun it hit ret => ?_) _
  refine crel_bind (h it hit) fun r => crel_bind (crel_inspectErr _ _) fun r => ?_
  cases r <;> exact crel_pure _

theorem crel_ltm (e : Error) (items : List (Pat ι β × Option (Val β)))
    (h : ∀ it ∈ items, C.R (mt it.1) (mt' it.1)) :
    C.R (Imp.ltm mt e items) (Imp.ltm mt' e items) := by
  refine crel_bind crel_offset fun beg => crel_bind (crel_forIn _ (fun it hit ret => ?_) _) fun r => ?_
  · refine crel_bind (crel_setOffset _) fun _ => crel_bind (h it hit) fun r => ?_
    cases r
    · exact crel_pure _
    · exact crel_ite (crel_pure _) (crel_pure _)
  · cases r <;> exact crel_pure _

theorem crel_rep (h : C.R (mt q) (mt' q)) (r : CRange) :
    C.R (Imp.rep mt n q r) (Imp.rep mt' n q r) := by
  refine crel_bind crel_offset fun off => crel_bind (crel_loop (fun s => crel_ite
    (crel_bind h fun r => ?_) (crel_pure _)) _ _) fun r => crel_inspectErr _ _
  cases r <;> crel

theorem crel_rep2 (h : C.R (mt q) (mt' q)) (m k : Nat) :
    C.R (Imp.rep2 mt n q m k) (Imp.rep2 mt' n q m k) := by
  refine crel_bind crel_offset fun off => crel_bind (crel_loop (fun s => crel_ite
    (crel_bind h fun r => ?_) (crel_pure _)) _ _) fun r => crel_inspectErr _ _
  cases r <;> crel

theorem crel_collect (h : C.R (mt q) (mt' q)) (m : Nat) :
    C.R (Imp.collect mt n q m) (Imp.collect mt' n q m) := by
  refine crel_bind crel_offset fun off => crel_bind (crel_loop (fun s =>
    (crel_bind h fun r => ?_)) _ _) fun r => crel_inspectErr _ _
  cases r <;> crel

theorem crel_sepBody (hs : C.R (mt s) (mt' s)) (skip : Bool) (cnt : Nat) (total p : Span) :
    C.R (Imp.sepBody mt s skip cnt total p) (Imp.sepBody mt' s skip cnt total p) := by
  refine crel_bind hs fun r => ?_
  refine crel_ite (crel_bind (crel_addAssign _ _) fun total => ?_) (crel_bind (crel_pure _) fun r => crel_pure _)
  cases r
  · exact crel_bind (crel_pure _) fun r => crel_pure _
  · exact crel_bind (crel_addAssign _ _) fun r => crel_bind (crel_pure _) fun r => crel_pure _

theorem crel_sep (h : C.R (mt q) (mt' q)) (hs : C.R (mt s) (mt' s)) (skip : Bool) (m : Nat) :
    C.R (Imp.sep mt n q s skip m) (Imp.sep mt' n q s skip m) := by
  refine crel_bind crel_offset fun off => crel_bind (crel_loop (fun x =>
    (crel_bind h fun r => ?_)) _ _) fun r => crel_inspectErr _ _
  cases r
  · exact crel_pure _
  · exact crel_sepBody hs _ _ _ _

theorem crel_sep2 (h : C.R (mt q) (mt' q)) (hs : C.R (mt s) (mt' s)) (skip : Bool) (m k : Nat) :
    C.R (Imp.sep2 mt n q s skip m k) (Imp.sep2 mt' n q s skip m k) := by
  refine crel_bind crel_offset fun off => crel_bind (crel_loop (fun x => crel_ite
    (crel_bind h fun r => ?_) (crel_pure _)) _ _) fun r => crel_inspectErr _ _
  cases r
  · exact crel_pure _
  · exact crel_sepBody hs _ _ _ _

theorem crel_sepCollect (h : C.R (mt q) (mt' q)) (hs : C.R (mt s) (mt' s)) (skip : Bool)
    (m : Nat) : C.R (Imp.sepCollect mt n q s skip m) (Imp.sepCollect mt' n q s skip m) := by
  refine crel_bind crel_offset fun off => crel_bind (crel_loop (fun x =>
    (crel_bind h fun r => ?_)) _ _) fun r => crel_inspectErr _ _
  cases r
  · exact crel_pure _
  · exact crel_sepBody hs _ _ _ _

theorem crel_branch (ha : C.R (mt a) (mt' a)) (hb : C.R (mt b) (mt' b))
    (test : List ι → Nat → Out Bool) : C.R (Imp.branch mt d test a b) (Imp.branch mt' d test a b) := by
  refine crel_bind crel_offset fun off => crel_bind (crel_peekCtx _) fun r => ?_
  cases r
  · exact crel_pure _
  · exact crel_ite (crel_bind ha fun r => crel_inspectErr _ _) (crel_bind hb fun r => crel_inspectErr _ _)

theorem crel_build (h : C.R (mt q) (mt' q)) (f : List ι → Nat → Span → Res (Pat ι β))
    (hf : ∀ d o s q o', f d o s = .ok q o' → C.R (mt q) (mt' q)) :
    C.R (Imp.build mt d q f) (Imp.build mt' d q f) := by
  refine crel_guarded (cgrel_bind (cgrel_tryMat h) fun r => cgrel_bind (cgrel_try _) fun span => ?_)
  exact cgrel_moved fun o p o' hfo => cgrel_bind (cgrel_tryMat (hf _ _ _ _ _ hfo)) fun r => cgrel_try r

end Parse

section Construct
variable {mt : Pat ι β → M σ (Except Error Span)}
  {mt' : Pat ι β → M τ (Except Error Span)}
  {cn : Pat ι β → M σ (Except Error (Val β))}
  {cn' : Pat ι β → M τ (Except Error (Val β))} {d : List ι} {q a b c t s : Pat ι β} {n : Nat}

theorem crel_thnC (ha : C.R (cn a) (cn' a)) (hb : C.R (cn b) (cn' b)) :
    C.R (Imp.thnC cn a b) (Imp.thnC cn' a b) := by
  refine crel_guarded (cgrel_bind (cgrel_call (crel_bind ha fun r => ?_)) fun r =>
    cgrel_bind (cgrel_processRet _) fun r => cgrel_try _)
  cases r
  · exact crel_pure _
  · refine crel_bind hb fun r => ?_
    cases r <;> exact crel_pure _

theorem crel_ifThenC (ha : C.R (cn a) (cn' a)) (ht : C.R (mt t) (mt' t))
    (hb : C.R (cn b) (cn' b)) : C.R (Imp.ifThenC mt cn a t b) (Imp.ifThenC mt' cn' a t b) := by
  simp only [Imp.ifThenC]
  crel

theorem crel_preC (ha : C.R (mt a) (mt' a)) (hb : C.R (cn b) (cn' b)) :
    C.R (Imp.preC mt cn a b) (Imp.preC mt' cn' a b) := by
  simp only [Imp.preC]
  crel

theorem crel_sufC (ha : C.R (cn a) (cn' a)) (hb : C.R (mt b) (mt' b)) :
    C.R (Imp.sufC mt cn a b) (Imp.sufC mt' cn' a b) := by
  simp only [Imp.sufC]
  crel

theorem crel_encloseC (ha : C.R (mt a) (mt' a)) (hb : C.R (cn b) (cn' b))
    (hc : C.R (mt c) (mt' c)) : C.R (Imp.encloseC mt cn a b c) (Imp.encloseC mt' cn' a b c) := by
  simp only [Imp.encloseC]
  crel

theorem crel_sepOnceC (ha : C.R (cn a) (cn' a)) (hb : C.R (mt b) (mt' b))
    (hc : C.R (cn c) (cn' c)) : C.R (Imp.sepOnceC mt cn a b c) (Imp.sepOnceC mt' cn' a b c) := by
  simp only [Imp.sepOnceC]
  crel

theorem crel_orC (ha : C.R (cn a) (cn' a)) (hb : C.R (cn b) (cn' b)) :
    C.R (Imp.orC cn a b) (Imp.orC cn' a b) := by
  simp only [Imp.orC]
  refine crel_bind crel_offset fun off => crel_bind ha fun l => ?_
  cases l <;> crel

theorem crel_longestC (ha : C.R (cn a) (cn' a)) (hb : C.R (cn b) (cn' b)) :
    C.R (Imp.longestC cn a b) (Imp.longestC cn' a b) := by
  simp only [Imp.longestC]
  crel

theorem crel_optC (h : C.R (cn q) (cn' q)) : C.R (Imp.optC cn q) (Imp.optC cn' q) := by
  refine crel_bind crel_offset fun off => crel_bind h fun l => crel_bind (crel_inspectErr _ _) fun r => ?_
  cases r <;> exact crel_pure _

theorem crel_choiceC (e : Error) (items : List (Pat ι β × Option (Val β)))
    (h : ∀ it ∈ items, C.R (cn it.1) (cn' it.1)) :
    C.R (Imp.choiceC cn e items) (Imp.choiceC cn' e items) := by
  refine crel_bind crel_offset fun beg => crel_forIn _ (fun it hit ret => ?_) _
  refine crel_bind (h it hit) fun r => crel_bind (crel_inspectErr _ _) fun r => ?_
  cases r <;> exact crel_pure _

theorem crel_ltmC (e : Error) (items : List (Pat ι β × Option (Val β)))
    (h : ∀ it ∈ items, C.R (cn it.1) (cn' it.1)) :
    C.R (Imp.ltmC cn e items) (Imp.ltmC cn' e items) := by
  refine crel_bind crel_offset fun beg => crel_bind (crel_forIn _ (fun it hit ret => ?_) _) fun r => ?_
  · refine crel_bind (crel_setOffset _) fun _ => crel_bind (h it hit) fun r => ?_
    cases r
    · exact crel_pure _
    · crel
  · rcases r with ⟨_ | ⟨v, k⟩, x⟩ <;> exact crel_pure _

theorem crel_repC (h : C.R (cn q) (cn' q)) (r : CRange) :
    C.R (Imp.repC cn n q r) (Imp.repC cn' n q r) := by
  refine crel_bind crel_offset fun off => crel_bind (crel_loop (fun s => crel_ite
    (crel_bind h fun r => ?_) (crel_pure _)) _ _) fun r => crel_inspectErr _ _
  cases r <;> crel

theorem crel_rep2C (h : C.R (cn q) (cn' q)) (m k : Nat) :
    C.R (Imp.rep2C cn n q m k) (Imp.rep2C cn' n q m k) := by
  refine crel_bind crel_offset fun off => crel_bind (crel_loop (fun s => crel_ite
    (crel_bind h fun r => ?_) (crel_pure _)) _ _) fun r => crel_inspectErr _ _
  cases r <;> crel

theorem crel_collectC (h : C.R (cn q) (cn' q)) (m : Nat) :
    C.R (Imp.collectC cn n q m) (Imp.collectC cn' n q m) := by
  refine crel_bind crel_offset fun off => crel_bind (crel_loop (fun s =>
    (crel_bind h fun r => ?_)) _ _) fun r => crel_inspectErr _ _
  cases r <;> crel

theorem crel_sepC (h : C.R (cn q) (cn' q)) (hs : C.R (mt s) (mt' s)) (skip : Bool) (m : Nat) :
    C.R (Imp.sepC mt cn n q s skip m) (Imp.sepC mt' cn' n q s skip m) := by
  refine crel_bind crel_offset fun off => crel_bind (crel_loop (fun x =>
    (crel_bind h fun r => ?_)) _ _) fun r => crel_inspectErr _ _
  cases r <;> crel

theorem crel_sep2C (h : C.R (cn q) (cn' q)) (hs : C.R (mt s) (mt' s)) (skip : Bool) (m k : Nat) :
    C.R (Imp.sep2C mt cn n q s skip m k) (Imp.sep2C mt' cn' n q s skip m k) := by
  refine crel_bind crel_offset fun off => crel_bind (crel_loop (fun x => crel_ite
    (crel_bind h fun r => ?_) (crel_pure _)) _ _) fun r => crel_inspectErr _ _
  cases r <;> crel

theorem crel_sepCollectC (h : C.R (cn q) (cn' q)) (hs : C.R (mt s) (mt' s)) (skip : Bool)
    (m : Nat) : C.R (Imp.sepCollectC mt cn n q s skip m) (Imp.sepCollectC mt' cn' n q s skip m) := by
  refine crel_bind crel_offset fun off => crel_bind (crel_loop (fun x =>
    (crel_bind h fun r => ?_)) _ _) fun r => crel_inspectErr _ _
  cases r <;> crel

theorem crel_branchC (ha : C.R (cn a) (cn' a)) (hb : C.R (cn b) (cn' b))
    (test : List ι → Nat → Out Bool) :
    C.R (Imp.branchC cn d test a b) (Imp.branchC cn' d test a b) := by
  refine crel_bind crel_offset fun off => crel_bind (crel_peekCtx _) fun r => ?_
  cases r
  · exact crel_pure _
  · exact crel_ite (crel_bind ha fun r => crel_inspectErr _ _) (crel_bind hb fun r => crel_inspectErr _ _)

theorem crel_mapC (h : C.R (cn q) (cn' q)) (f : Val β → Out (Val β)) :
    C.R (Imp.mapC cn q f) (Imp.mapC cn' q f) := by
  refine crel_bind h fun r => ?_
  cases r
  · exact crel_pure _
  · exact crel_peekCtx _

theorem crel_dthenC (h : C.R (cn q) (cn' q)) (f : List ι → Nat → Val β → Res (Pat ι β))
    (hf : ∀ d o s q o', f d o s = .ok q o' → C.R (cn q) (cn' q)) :
    C.R (Imp.dthenC cn d q f) (Imp.dthenC cn' d q f) := by
  refine crel_guarded (cgrel_bind (cgrel_call h) fun r => cgrel_bind (cgrel_processRet _) fun r =>
    cgrel_bind (cgrel_try _) fun v => ?_)
  exact cgrel_moved fun o p o' hfo => cgrel_bind (cgrel_call (hf _ _ _ _ _ hfo)) fun r =>
    cgrel_bind (cgrel_processRet _) fun r => cgrel_bind (cgrel_try r) fun _ => cgrel_pure _

/-- The handlers, called with the same arguments, are related programs. -/
def Cong.Handlers (C : Cong σ τ) (H : Handler ι β σ) (H' : Handler ι β τ) : Prop :=
  ∀ d m m', C.R m m' → C.R (Imp.invoke H d m) (Imp.invoke H' d m')

end Construct

/-! ## One level -/

theorem crel_impStep (G : Rules ι β) (n : Nat)
    {mt : List ι → Pat ι β → M σ (Except Error Span)}
    {mt' : List ι → Pat ι β → M τ (Except Error Span)}
    {pr : Pat ι β → M σ (Except Error Span)} {pr' : Pat ι β → M τ (Except Error Span)}
    (d : List ι) (p : Pat ι β) (hp : ∀ i, p ≠ .cell i)
    (hm : ∀ d q, Child (fun _ => none) q p → C.R (mt d q) (mt' d q)) :
    C.R (impStep G n mt pr d p) (impStep G n mt' pr' d p) := by
  cases p with
  | empty => exact crel_empty
  | fail => exact crel_pure _
  | start => exact crel_start
  | anchorEnd => exact crel_anchorEnd
  | consume n => exact crel_consume n
  | consumeAll => exact crel_consumeAll
  | lit l => exact crel_lit l
  | native f => exact crel_moveCtx _
  | once u c => exact crel_once hm
  | many1 u c => exact crel_many1 hm
  | optU u c => exact crel_optU hm
  | many0 u c => exact crel_many0 hm
  | between m n u c => exact crel_between hm m n
  | times r u c => exact crel_times hm r
  | thenU u v c => exact crel_thenU hm
  | assert q v => exact crel_assert (hm _ _ rfl) v
  | thn a b => exact crel_thn (hm _ _ (.inl rfl)) (hm _ _ (.inr rfl))
  | ifThen a t b => exact crel_ifThen (hm _ _ (.inl rfl)) (hm _ _ (.inr (.inl rfl))) (hm _ _ (.inr (.inr rfl)))
  | pre a b => exact crel_pre (hm _ _ (.inl rfl)) (hm _ _ (.inr rfl))
  | suf a b => exact crel_suf (hm _ _ (.inl rfl)) (hm _ _ (.inr rfl))
  | enclose a b c => exact crel_enclose (hm _ _ (.inl rfl)) (hm _ _ (.inr (.inl rfl))) (hm _ _ (.inr (.inr rfl)))
  | sepOnce a b c => exact crel_sepOnce (hm _ _ (.inl rfl)) (hm _ _ (.inr (.inl rfl))) (hm _ _ (.inr (.inr rfl)))
  | or a b => exact crel_or (hm _ _ (.inl rfl)) (hm _ _ (.inr rfl))
  | longest a b => exact crel_longest (hm _ _ (.inl rfl)) (hm _ _ (.inr rfl))
  | opt q => exact crel_opt (hm _ _ rfl)
  | choice e items => exact crel_choice e items fun it hit => hm _ _ ⟨it, hit, rfl⟩
  | ltm e items => exact crel_ltm e items fun it hit => hm _ _ ⟨it, hit, rfl⟩
  | rep q r => exact crel_rep (hm _ _ rfl) r
  | rep2 q m n => exact crel_rep2 (hm _ _ rfl) m n
  | collect q m => exact crel_collect (hm _ _ rfl) m
  | sep q s k m => exact crel_sep (hm _ _ (.inl rfl)) (hm _ _ (.inr rfl)) k m
  | sep2 q s k m n => exact crel_sep2 (hm _ _ (.inl rfl)) (hm _ _ (.inr rfl)) k m n
  | sepCollect q s k m => exact crel_sepCollect (hm _ _ (.inl rfl)) (hm _ _ (.inr rfl)) k m
  | branch t a b => exact crel_branch (hm _ _ (.inl rfl)) (hm _ _ (.inr rfl)) t
  | map q f => exact hm _ _ rfl
  | pat q => exact hm _ _ rfl
  | build q f => exact crel_build (hm _ _ (.inl rfl)) f fun d' o s q o' h => hm _ _ (.inr ⟨d', o, s, o', h⟩)
  | dthen q f => exact crel_panic
  | cell i => exact absurd rfl (hp i)

theorem crel_impConStep (G : Rules ι β) {H : Handler ι β σ} {H' : Handler ι β τ}
    (hH : C.Handlers H H') (n : Nat)
    {mt : Pat ι β → M σ (Except Error Span)} {mt' : Pat ι β → M τ (Except Error Span)}
    {leaf : M σ (Except Error Span)} {leaf' : M τ (Except Error Span)}
    {cn : Pat ι β → M σ (Except Error (Val β))}
    {cn' : Pat ι β → M τ (Except Error (Val β))}
    (d : List ι) (p : Pat ι β) (hp : ∀ i, p ≠ .cell i) (hl : C.R leaf leaf')
    (hm : ∀ q, Child (fun _ => none) q p → C.R (mt q) (mt' q))
    (hc : ∀ q, Child (fun _ => none) q p → C.R (cn q) (cn' q)) :
    C.R (impConStep G H n mt leaf cn d p) (impConStep G H' n mt' leaf' cn' d p) := by
  cases p with
  | empty | fail | start | anchorEnd | consume _ | consumeAll | lit _ | native _
  | once _ _ | many1 _ _ | optU _ _ | many0 _ _ | between _ _ _ _ | times _ _ _
  | thenU _ _ _ | assert _ _ | build _ _ => exact hH _ _ _ hl
  | pat q => exact hH _ _ _ (hm _ rfl)
  | thn a b => exact crel_thnC (hc _ (.inl rfl)) (hc _ (.inr rfl))
  | ifThen a t b => exact crel_ifThenC (hc _ (.inl rfl)) (hm _ (.inr (.inl rfl))) (hc _ (.inr (.inr rfl)))
  | pre a b => exact crel_preC (hm _ (.inl rfl)) (hc _ (.inr rfl))
  | suf a b => exact crel_sufC (hc _ (.inl rfl)) (hm _ (.inr rfl))
  | enclose a b c => exact crel_encloseC (hm _ (.inl rfl)) (hc _ (.inr (.inl rfl))) (hm _ (.inr (.inr rfl)))
  | sepOnce a b c => exact crel_sepOnceC (hc _ (.inl rfl)) (hm _ (.inr (.inl rfl))) (hc _ (.inr (.inr rfl)))
  | or a b => exact crel_orC (hc _ (.inl rfl)) (hc _ (.inr rfl))
  | longest a b => exact crel_longestC (hc _ (.inl rfl)) (hc _ (.inr rfl))
  | opt q => exact crel_optC (hc _ rfl)
  | choice e items => exact crel_choiceC e items fun it hit => hc _ ⟨it, hit, rfl⟩
  | ltm e items => exact crel_ltmC e items fun it hit => hc _ ⟨it, hit, rfl⟩
  | rep q r => exact crel_repC (hc _ rfl) r
  | rep2 q m n => exact crel_rep2C (hc _ rfl) m n
  | collect q m => exact crel_collectC (hc _ rfl) m
  | sep q s k m => exact crel_sepC (hc _ (.inl rfl)) (hm _ (.inr rfl)) k m
  | sep2 q s k m n => exact crel_sep2C (hc _ (.inl rfl)) (hm _ (.inr rfl)) k m n
  | sepCollect q s k m => exact crel_sepCollectC (hc _ (.inl rfl)) (hm _ (.inr rfl)) k m
  | branch t a b => exact crel_branchC (hc _ (.inl rfl)) (hc _ (.inr rfl)) t
  | map q f => exact crel_mapC (hc _ rfl) f
  | dthen q f => exact crel_dthenC (hc _ (.inl rfl)) f fun d' o s q o' h => hc _ (.inr ⟨d', o, s, o', h⟩)
  | cell i => exact absurd rfl (hp i)

end Neure
