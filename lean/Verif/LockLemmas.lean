import Verif.LockStep
import Verif.LockSpec
import Verif.RecSync
import Verif.PropsRec
import Verif.PropsGuard
/-!
# What threads write down, and what becomes of them
-/

namespace Neure

set_option linter.unusedSectionVars false

variable {ι β σ α : Type} [Item ι] {G : Rules ι β} {H : Handler ι β σ} {rank : Nat → Nat}

/-! ## Words -/

/-- Blocks `acq i … rel i`; what is directly inside handle `i` has lower rank. -/
inductive Nested (rank : Nat → Nat) : (Nat → Prop) → List Ev → Prop where
  | nil (S) : Nested rank S []
  | block {S : Nat → Prop} {i u v} : S i → Nested rank (fun k => rank k < rank i) u →
      Nested rank S v → Nested rank S (.acq i :: (u ++ .rel i :: v))

theorem Nested.append {S : Nat → Prop} {u v : List Ev} (hu : Nested rank S u)
    (hv : Nested rank S v) : Nested rank S (u ++ v) := by
  induction hu with
  | nil => exact hv
  | block hi h1 _ _ ih => simpa using Nested.block hi h1 (ih hv)

theorem Nested.mono {S T : Nat → Prop} {u : List Ev} (hu : Nested rank S u) (h : ∀ i, S i → T i) :
    Nested rank T u := by
  induction hu with
  | nil => exact .nil _
  | block hi h1 _ _ ih => exact .block (h _ hi) h1 (ih h)

/-- Blocks `acq i … rel i`. -/
inductive Balanced : List Ev → Prop where
  | nil : Balanced []
  | block {i u v} : Balanced u → Balanced v → Balanced (.acq i :: (u ++ .rel i :: v))

theorem Balanced.append {u v : List Ev} (hu : Balanced u) (hv : Balanced v) : Balanced (u ++ v) := by
  induction hu with
  | nil => exact hv
  | block h1 _ _ ih => simpa using Balanced.block h1 ih

theorem noReentry_append {u v : List Ev} (hu : Balanced u) (held : List Nat) :
    NoReentry held (u ++ v) ↔ NoReentry held u ∧ NoReentry held v := by
  induction hu generalizing held v with
  | nil => simp [NoReentry]
  | @block i u u' _ _ ih1 ih2 =>
    simp only [List.cons_append, List.append_assoc, NoReentry, ih1, List.erase_cons_head, ih2]
    constructor
    · rintro ⟨a, b, c, d⟩; exact ⟨⟨a, b, c⟩, d⟩
    · rintro ⟨⟨a, b, c⟩, d⟩; exact ⟨a, b, c, d⟩

/-- Words in lock order; nothing else is asked. -/
def ordered (rank : Nat → Nat) (S : Nat → Prop) : Words where
  W := Nested rank S
  F _ := True
  Q := False
  nil := .nil _
  fnil := trivial
  app _ _ := Nested.append
  fapp _ _ _ := ⟨fun _ => ⟨trivial, trivial⟩, fun _ => trivial⟩
  give := .inr fun _ => trivial

/-- Balanced words; the other program goes on as long as nothing is locked twice. -/
def reentry (held : List Nat) : Words where
  W := Balanced
  F := NoReentry held
  Q := True
  nil := .nil
  fnil := trivial
  app _ _ := Balanced.append
  fapp _ _ h := noReentry_append h held
  give := .inl trivial

/-- Any words. -/
def anyWords : Words where
  W _ := True
  F _ := True
  Q := False
  nil := trivial
  fnil := trivial
  app _ _ _ _ := trivial
  fapp _ _ _ := ⟨fun _ => ⟨trivial, trivial⟩, fun _ => trivial⟩
  give := .inr fun _ => trivial

/-! ## One level as an imperative body again -/

theorem lrel_mat {X : Words} {pr : Option (Pat ι β) → List ι → Pat ι β → M (σ × List Ev) (Except Error Span)}
    {pr' : Option (Pat ι β) → List ι → Pat ι β → Nat → Option (Res Span)} {pol : Option (Pat ι β)}
    {d : List ι} {p : Pat ι β}
    (hs : ∀ s, pol = some s → LRel X (pr none d s) (liftR (pr' none d s)))
    (hp : LRel X (pr pol d p) (liftR (pr' pol d p))) :
    LRel X (impMat pr pol d p) (liftR (matWith pr' pol d p)) := by
  rw [← imp_mat]
  cases pol with
  | none => exact hp
  | some s =>
    refine lrel_bind (hs s rfl) fun r => ?_
    cases r
    · exact lrel_pure _
    · exact hp

theorem lrel_parse_other {X : Words} (n : Nat)
    {mt : List ι → Pat ι β → M (σ × List Ev) (Except Error Span)}
    {mt' : List ι → Pat ι β → Nat → Option (Res Span)}
    {pr : Pat ι β → M (σ × List Ev) (Except Error Span)} {pr' : Pat ι β → Nat → Option (Res Span)}
    (d : List ι) (p : Pat ι β) (hp : ∀ i, p ≠ .cell i)
    (hm : ∀ d q, Child (fun _ => none) q p → LRel X (mt d q) (liftR (mt' d q))) :
    LRel X (impStep G n mt pr d p) (liftR (step G n mt' pr' d p)) := by
  rw [← imp_step]
  exact lrel_impStep G n d p hp hm

theorem lrel_con_other {X : Words} (n : Nat)
    {mt : Pat ι β → M (σ × List Ev) (Except Error Span)} {mt' : Pat ι β → Nat → Option (Res Span)}
    {leaf : M (σ × List Ev) (Except Error Span)} {leaf' : Nat → Option (Res Span)}
    {cn : Pat ι β → M (σ × List Ev) (Except Error (Val β))}
    {cn' : Pat ι β → σ → Nat → Option (CRes σ (Val β))}
    (d : List ι) (p : Pat ι β) (hp : ∀ i, p ≠ .cell i) (hl : LRel X leaf (liftR leaf'))
    (hm : ∀ q, Child (fun _ => none) q p → LRel X (mt q) (liftR (mt' q)))
    (hc : ∀ q, Child (fun _ => none) q p → LRel X (cn q) (liftC (cn' q))) :
    LRel X (impConStep G (besides H) n mt leaf cn d p)
      (liftC fun st o => conStep G H n mt' (leaf' o) cn' d p st o) := by
  rw [← imp_conStep]
  exact lrel_impConStep G H n d p hp hl hm hc

theorem lockParse_other (n : Nat) (pol : Option (Pat ι β)) (d : List ι) (p : Pat ι β)
    (hp : ∀ i, p ≠ .cell i) :
    lockParse (σ := σ) G (n + 1) pol d p =
      impStep G n (impMat (lockParse G n) pol) (lockParse G n pol d) d p := by
  cases p <;> first | rfl | exact absurd rfl (hp _)

theorem lockCon_other (n : Nat) (pol : Option (Pat ι β)) (d : List ι) (p : Pat ι β)
    (hp : ∀ i, p ≠ .cell i) :
    lockCon G H (n + 1) pol d p = impConStep G (besides H) n (lockMat G n pol d)
      (lockMat G (n + 1) pol d p) (lockCon G H n pol d) d p := by
  cases p <;> first | rfl | exact absurd rfl (hp _)

/-- The content of a handle runs between `acq` and `rel`; `y₁` is the other program
for the content, `y` the one for the handle. -/
theorem lrel_locked' {X Y : Words} {i : Nat} {use : Pat ι β → M (σ × List Ev) (Except Error α)}
    {y y₁ : M σ (Except Error α)}
    (hW : ∀ w, Y.W w → X.W (.acq i :: (w ++ [.rel i])))
    (hF : ∀ w, Y.W w → X.F (.acq i :: (w ++ [.rel i])) → Y.F w ∧ y = y₁)
    (hF' : ∀ w, Y.W w → ¬ X.F (.acq i :: (w ++ [.rel i])) → (¬ Y.F w ∧ y = y₁) ∨ ∀ s o, y s o = none)
    (hy : y = y₁ ∨ (X.Q ∧ ∀ s o, y s o = none))
    (hQ : Y.Q → X.Q)
    (h0 : G i = none → LRel Y (pure (.error .option) : M (σ × List Ev) (Except Error α)) y₁)
    (h1 : ∀ q, G i = some q → LRel Y (use q) y₁) :
    LRel X (locked G i use) y := by
  have key : ∀ z : M (σ × List Ev) (Except Error α), LRel Y z y₁ →
      LRel X (do log (.acq i); let ret ← z; log (.rel i); return ret) y := by
    intro z hz
    unfold LRel at hz ⊢
    intro s l o
    have hz := hz s (l ++ [.acq i]) o
    simp only [M.bind_app, log]
    generalize z (s, l ++ [.acq i]) o = rz at hz ⊢
    rcases rz with _ | (⟨a, ⟨s', l'⟩, o'⟩ | _)
    · rcases hy with rfl | ⟨_, hn⟩
      · exact hz
      · exact hn _ _
    · obtain ⟨w, rfl, hw, h1, h2⟩ := hz
      refine ⟨.acq i :: (w ++ [.rel i]), by simp, hW w hw, fun hx => ?_, fun hx => ?_⟩
      · obtain ⟨hf, rfl⟩ := hF w hw hx
        exact h1 hf
      · rcases hF' w hw hx with ⟨hf, rfl⟩ | hy
        · exact h2 hf
        · exact hy _ _
    · rcases hy with rfl | ⟨hq, hn⟩
      · rcases hz with hz | ⟨hq, hz⟩
        · exact .inl hz
        · exact .inr ⟨hQ hq, hz⟩
      · exact .inr ⟨hq, hn _ _⟩
  cases hi : G i with
  | none => simp only [locked, hi]; exact key _ (h0 hi)
  | some q => simp only [locked, hi]; exact key _ (h1 q hi)

theorem lrel_locked_ordered {i : Nat} {S : Nat → Prop}
    {use : Pat ι β → M (σ × List Ev) (Except Error α)} {y : M σ (Except Error α)} (hi : S i)
    (h0 : G i = none → y = pure (.error .option))
    (h1 : ∀ q, G i = some q → LRel (ordered rank fun k => rank k < rank i) (use q) y) :
    LRel (ordered rank S) (locked G i use) y :=
  lrel_locked' (Y := ordered rank fun k => rank k < rank i)
    (fun w hw => .block hi hw (.nil _)) (fun _ _ _ => ⟨trivial, rfl⟩)
    (fun _ _ h => absurd trivial h) (.inl rfl) id (fun h => h0 h ▸ lrel_pure _) h1

theorem noReentry_block {held : List Nat} {i : Nat} {w : List Ev} (hw : Balanced w) :
    NoReentry held (.acq i :: (w ++ [.rel i])) ↔ i ∉ held ∧ NoReentry (i :: held) w := by
  simp [NoReentry, noReentry_append hw]

theorem lrel_locked_reentry {i : Nat} {held : List Nat}
    {use : Pat ι β → M (σ × List Ev) (Except Error α)} {y y₁ : M σ (Except Error α)}
    (hin : i ∈ held → ∀ s o, y s o = none) (hout : i ∉ held → y = y₁)
    (h0 : G i = none → y₁ = pure (.error .option))
    (h1 : ∀ q, G i = some q → LRel (reentry (i :: held)) (use q) y₁) :
    LRel (reentry held) (locked G i use) y := by
  refine lrel_locked' (Y := reentry (i :: held)) (y₁ := y₁)
    (fun w hw => .block hw .nil) (fun w hw h => ?_) (fun w hw h => ?_) ?_ id
    (fun h => h0 h ▸ lrel_pure _) h1
  · have h := (noReentry_block hw).mp h
    exact ⟨h.2, hout h.1⟩
  · by_cases hi : i ∈ held
    · exact .inr (hin hi)
    · exact .inl ⟨fun hf => h ((noReentry_block hw).mpr ⟨hi, hf⟩), hout hi⟩
  · by_cases hi : i ∈ held
    · exact .inr ⟨trivial, hin hi⟩
    · exact .inl (hout hi)

theorem desc_of_none {G : Rules ι β} {p q : Pat ι β} (h : Desc (fun _ => none) p q) : Desc G p q := by
  induction h with
  | refl => exact .refl
  | step _ hc ih =>
    refine .step ih ?_
    revert hc
    rename_i a b _
    cases a <;> simp [Child]

theorem Mentions.child {p q : Pat ι β} {k : Nat} (h : Mentions q k) (hc : Child (fun _ => none) q p) :
    Mentions p k := (Desc.step .refl hc).trans h

theorem PolicyBelow.desc {pol : Option (Pat ι β)} {p q : Pat ι β} (h : PolicyBelow rank G pol p)
    (hc : Desc G p q) : PolicyBelow rank G pol q :=
  fun s hs j hj i hi => h s hs j hj i (hc.trans hi)

theorem PolicyBelow.none' {p : Pat ι β} : PolicyBelow rank G none p := fun _ hs => by cases hs

/-! ## Writing does not change the result, and follows the lock order -/

theorem lrel_lockParse (hG : LockOrder rank G) (n : Nat) (pol : Option (Pat ι β)) (d : List ι)
    (p : Pat ι β) (S : Nat → Prop) (hp : ∀ k, Mentions p k → S k)
    (hs : ∀ s, pol = some s → ∀ k, Mentions s k → S k) (hr : PolicyBelow rank G pol p) :
    LRel (σ := σ) (ordered rank S) (lockParse G n pol d p) (liftR (parse G n pol d p)) := by
  induction n generalizing pol d p S with
  | zero => exact lrel_none
  | succ n ih =>
    rcases isCell p with ⟨i, rfl⟩ | hc
    · refine lrel_locked_ordered (hp i .refl) (fun hi => ?_) (fun q hi => ?_)
      · simp only [parse, step, hi]; rfl
      · have : liftR (σ := σ) (parse G (n + 1) pol d (.cell i)) = liftR (parse G n pol d q) := by
          simp only [parse, step, hi]
        rw [this]
        exact ih _ _ _ _ (hG i q hi) (fun s hs k hk => hr s hs k hk i .refl)
          (hr.desc (.step .refl (by exact hi)))
    · rw [lockParse_other _ _ _ _ hc]
      refine lrel_parse_other n d p hc fun d q hq => lrel_mat (fun s hs' => ?_) ?_
      · exact ih _ _ _ _ (fun k hk => hs s hs' k hk) (fun _ h => by cases h) .none'
      · exact ih _ _ _ _ (fun k hk => hp k (hk.child hq)) hs (hr.desc (desc_of_none (.step .refl hq)))

theorem lrel_lockMat (hG : LockOrder rank G) (n : Nat) (pol : Option (Pat ι β)) (d : List ι)
    (p : Pat ι β) (S : Nat → Prop) (hp : ∀ k, Mentions p k → S k)
    (hs : ∀ s, pol = some s → ∀ k, Mentions s k → S k) (hr : PolicyBelow rank G pol p) :
    LRel (σ := σ) (ordered rank S) (lockMat G n pol d p) (liftR (tryMat G n pol d p)) :=
  lrel_mat (fun s hs' => lrel_lockParse hG _ _ _ _ _ (fun k hk => hs s hs' k hk) (fun _ h => by cases h) .none')
    (lrel_lockParse hG _ _ _ _ _ hp hs hr)

theorem lrel_lockCon (hG : LockOrder rank G) (n : Nat) (pol : Option (Pat ι β)) (d : List ι)
    (p : Pat ι β) (S : Nat → Prop) (hp : ∀ k, Mentions p k → S k)
    (hs : ∀ s, pol = some s → ∀ k, Mentions s k → S k) (hr : PolicyBelow rank G pol p) :
    LRel (ordered rank S) (lockCon G H n pol d p) (liftC (con G H n pol d p)) := by
  induction n generalizing p S with
  | zero => exact lrel_none
  | succ n ih =>
    rcases isCell p with ⟨i, rfl⟩ | hc
    · refine lrel_locked_ordered (hp i .refl) (fun hi => ?_) (fun q hi => ?_)
      · funext st o
        simp only [con, conStep, hi, liftC]; rfl
      · have : liftC (con G H (n + 1) pol d (.cell i)) = liftC (con G H n pol d q) := by
          funext st o
          simp only [con, conStep, hi, liftC]
        rw [this]
        exact ih _ _ (hG i q hi) (fun s hs k hk => hr s hs k hk i .refl)
          (hr.desc (.step .refl (by exact hi)))
    · rw [lockCon_other _ _ _ _ hc]
      exact lrel_con_other n d p hc (lrel_lockMat hG _ _ _ _ _ hp hs hr)
        (fun q hq => lrel_lockMat hG _ _ _ _ _ (fun k hk => hp k (hk.child hq)) hs
          (hr.desc (desc_of_none (.step .refl hq))))
        (fun q hq => ih _ _ (fun k hk => hp k (hk.child hq)) hs (hr.desc (desc_of_none (.step .refl hq))))

/-! ## One thread with re-entrance -/

theorem lrel_syncParse (n : Nat) (held : List Nat) (pol : Option (Pat ι β)) (d : List ι)
    (p : Pat ι β) :
    LRel (σ := σ) (reentry held) (lockParse G n pol d p) (liftR (parseSync G n held pol d p)) := by
  induction n generalizing held pol d p with
  | zero => exact lrel_none
  | succ n ih =>
    rcases isCell p with ⟨i, rfl⟩ | hc
    · refine lrel_locked_reentry (y₁ := match G i with
          | none => pure (.error .option)
          | some q => liftR (parseSync G n (i :: held) pol d q)) (fun hi s o => ?_) (fun hi => ?_)
        (fun hi => by simp [hi]) (fun q hi => ?_)
      · simp only [parseSync, if_pos hi, liftR]
      · funext s o
        simp only [parseSync, if_neg hi, liftR]
        cases G i <;> rfl
      · simp only [hi]; exact ih _ _ _ _
    · rw [lockParse_other _ _ _ _ hc]
      have : liftR (σ := σ) (parseSync G (n + 1) held pol d p) =
          liftR (step G n (matWith (parseSync G n held) pol) (parseSync G n held pol d) d p) := by
        congr 1; funext o; exact parseSync_other G n held pol p o hc
      rw [this]
      exact lrel_parse_other n d p hc fun d q hq => lrel_mat (fun s hs' => ih _ _ _ _) (ih _ _ _ _)

theorem lrel_syncMat (n : Nat) (held : List Nat) (pol : Option (Pat ι β)) (d : List ι)
    (p : Pat ι β) :
    LRel (σ := σ) (reentry held) (lockMat G n pol d p) (liftR (tryMatSync G n held pol d p)) :=
  lrel_mat (fun _ _ => lrel_syncParse _ _ _ _ _) (lrel_syncParse _ _ _ _ _)

theorem lrel_syncCon (n : Nat) (held : List Nat) (pol : Option (Pat ι β)) (d : List ι)
    (p : Pat ι β) :
    LRel (reentry held) (lockCon G H n pol d p) (liftC (conSync G H n held pol d p)) := by
  induction n generalizing held p with
  | zero => exact lrel_none
  | succ n ih =>
    rcases isCell p with ⟨i, rfl⟩ | hc
    · refine lrel_locked_reentry (y₁ := match G i with
          | none => pure (.error .option)
          | some q => liftC (conSync G H n (i :: held) pol d q)) (fun hi s o => ?_) (fun hi => ?_)
        (fun hi => by simp [hi]) (fun q hi => ?_)
      · simp only [conSync, if_pos hi, liftC]
      · funext s o
        simp only [conSync, if_neg hi, liftC]
        cases G i <;> rfl
      · simp only [hi]; exact ih _ _
    · rw [lockCon_other _ _ _ _ hc]
      have : liftC (conSync G H (n + 1) held pol d p) =
          liftC fun st o => conStep G H n (tryMatSync G n held pol d) (tryMatSync G (n + 1) held pol d p o)
            (conSync G H n held pol d) d p st o := by
        congr 1; funext st o; exact conSync_other G n held pol p st o hc
      rw [this]
      exact lrel_con_other (leaf' := tryMatSync G (n + 1) held pol d p) n d p hc (lrel_syncMat _ _ _ _ _)
        (fun q hq => lrel_syncMat _ _ _ _ _) (fun q hq => ih _ _)

/-! ## Without a lock order -/

theorem lrel_anyParse (n : Nat) (pol : Option (Pat ι β)) (d : List ι) (p : Pat ι β) :
    LRel (σ := σ) anyWords (lockParse G n pol d p) (liftR (parse G n pol d p)) := by
  induction n generalizing pol d p with
  | zero => exact lrel_none
  | succ n ih =>
    rcases isCell p with ⟨i, rfl⟩ | hc
    · refine lrel_locked' (Y := anyWords) (fun _ _ => trivial) (fun _ _ _ => ⟨trivial, rfl⟩)
        (fun _ _ h => absurd trivial h) (.inl rfl) id (fun hi => ?_) (fun q hi => ?_)
      · have : liftR (σ := σ) (parse G (n + 1) pol d (.cell i)) = pure (.error .option) := by
          simp only [parse, step, hi]; rfl
        rw [this]; exact lrel_pure _
      · have : liftR (σ := σ) (parse G (n + 1) pol d (.cell i)) = liftR (parse G n pol d q) := by
          simp only [parse, step, hi]
        rw [this]
        exact ih _ _ _
    · rw [lockParse_other _ _ _ _ hc]
      exact lrel_parse_other n d p hc fun d q hq => lrel_mat (fun s hs' => ih _ _ _) (ih _ _ _)

theorem lrel_anyMat (n : Nat) (pol : Option (Pat ι β)) (d : List ι) (p : Pat ι β) :
    LRel (σ := σ) anyWords (lockMat G n pol d p) (liftR (tryMat G n pol d p)) :=
  lrel_mat (fun s hs' => lrel_anyParse _ _ _ _) (lrel_anyParse _ _ _ _)

theorem lrel_anyCon (n : Nat) (pol : Option (Pat ι β)) (d : List ι) (p : Pat ι β) :
    LRel anyWords (lockCon G H n pol d p) (liftC (con G H n pol d p)) := by
  induction n generalizing p with
  | zero => exact lrel_none
  | succ n ih =>
    rcases isCell p with ⟨i, rfl⟩ | hc
    · refine lrel_locked' (Y := anyWords) (fun _ _ => trivial) (fun _ _ _ => ⟨trivial, rfl⟩)
        (fun _ _ h => absurd trivial h) (.inl rfl) id (fun hi => ?_) (fun q hi => ?_)
      · have : liftC (con G H (n + 1) pol d (.cell i)) = pure (.error .option) := by
          funext st o
          simp only [con, conStep, hi, liftC]; rfl
        rw [this]; exact lrel_pure _
      · have : liftC (con G H (n + 1) pol d (.cell i)) = liftC (con G H n pol d q) := by
          funext st o
          simp only [con, conStep, hi, liftC]
        rw [this]
        exact ih _
    · rw [lockCon_other _ _ _ _ hc]
      exact lrel_con_other n d p hc (lrel_anyMat _ _ _ _) (fun q hq => lrel_anyMat _ _ _ _)
        (fun q hq => ih _)

/-! ## From the relation to results -/

theorem LRel.out {X : Words} {x : M (σ × List Ev) α} {y : M σ α} (h : LRel X x y) (s : σ) (l : List Ev) (o : Nat) :
    match x (s, l) o with
    | none => y s o = none
    | some .panic => y s o = some .panic ∨ (X.Q ∧ y s o = none)
    | some (.done a st' o') => ∃ w, st'.2 = l ++ w ∧ X.W w ∧
        (X.F w → y s o = some (.done a st'.1 o')) ∧ (¬ X.F w → y s o = none) := by
  unfold LRel at h
  exact h s l o

/-- The other program returns exactly what this one does with an `F` word. -/
theorem LRel.done {X : Words} {x : M (σ × List Ev) α} {y : M σ α} (h : LRel X x y) (s s' : σ)
    (o o' : Nat) (a : α) :
    y s o = some (.done a s' o') ↔ ∃ w, x (s, []) o = some (.done a (s', w) o') ∧ X.W w ∧ X.F w := by
  have h := h.out s [] o
  generalize x (s, []) o = rx at h ⊢
  rcases rx with _ | (⟨b, ⟨s1, l⟩, o1⟩ | _)
  · simp [h]
  · obtain ⟨w, hl, hw, h1, h2⟩ := h
    obtain rfl : l = w := hl
    constructor
    · intro hy
      by_cases hF : X.F l
      · have := h1 hF
        rw [hy] at this
        cases this
        exact ⟨l, rfl, hw, hF⟩
      · rw [h2 hF] at hy; cases hy
    · rintro ⟨w', hw', _, hF⟩
      cases hw'
      exact h1 hF
  · rcases h with h | ⟨_, h⟩ <;> simp [h]

theorem liftR_done {r : Nat → Option (Res α)} {s : σ} {o o' : Nat} {a : Except Error α} :
    liftR r s o = some (.done a s o') ↔ r o = some (resOf a o') := by
  simp only [liftR]
  rcases r o with _ | (⟨v, o1⟩ | ⟨e, o1⟩ | _) <;> cases a <;> simp [resOf]

theorem liftC_done {r : σ → Nat → Option (CRes σ α)} {s s' : σ} {o o' : Nat} {a : Except Error α} :
    liftC r s o = some (.done a s' o') ↔ r s o = some (cresOf a s' o') := by
  simp only [liftC]
  rcases r s o with _ | (⟨v, s1, o1⟩ | ⟨e, s1, o1⟩ | _) <;> cases a <;> simp [cresOf]

theorem resOf_cases (r : Res α) (h : r ≠ .panic) : ∃ a o, r = resOf a o := by
  cases r with
  | ok a o => exact ⟨.ok a, o, rfl⟩
  | err e o => exact ⟨.error e, o, rfl⟩
  | panic => exact absurd rfl h

theorem cresOf_cases (r : CRes σ α) (h : r ≠ .panic) : ∃ a s o, r = cresOf a s o := by
  cases r with
  | ok a s o => exact ⟨.ok a, s, o, rfl⟩
  | err e s o => exact ⟨.error e, s, o, rfl⟩
  | panic => exact absurd rfl h

/-! ## The threads -/

/-- What a thread holding `h` (innermost first) still has to do. -/
def Rest (rank : Nat → Nat) : List Nat → List Ev → Prop
  | [], w => Nested rank (fun _ => True) w
  | i :: h, w => ∃ u v, w = u ++ .rel i :: v ∧ Nested rank (fun k => rank k < rank i) u ∧
      Rest rank h v ∧ ∀ j ∈ h, rank i < rank j

/-- In every reachable state: what the threads hold, innermost first. -/
def Sys.Inv (rank : Nat → Nat) (s : Sys) (h : Nat → List Nat) : Prop :=
  (∀ t, Rest rank (h t) (s.todo t)) ∧ ∀ i t, s.owner i = some t ↔ i ∈ h t

theorem Rest.acq {h : List Nat} {i : Nat} {w : List Ev} (hr : Rest rank h (.acq i :: w)) :
    Rest rank (i :: h) w ∧ ∀ j ∈ h, rank i < rank j := by
  cases h with
  | nil =>
    cases hr with
    | block _ hu hv => exact ⟨⟨_, _, rfl, hu, hv, by simp⟩, by simp⟩
  | cons j h =>
    obtain ⟨u, v, he, hu, hv, hj⟩ := hr
    cases hu with
    | nil => simp at he
    | block hi hu1 hu2 =>
      simp only [List.cons_append, List.append_assoc, List.cons.injEq, Ev.acq.injEq] at he
      obtain ⟨rfl, rfl⟩ := he
      have hlt : ∀ k ∈ j :: h, rank i < rank k := by
        intro k hk
        rcases List.mem_cons.mp hk with rfl | hk
        · exact hi
        · exact Nat.lt_trans hi (hj k hk)
      exact ⟨⟨_, _, rfl, hu1, ⟨_, _, rfl, hu2, hv, hj⟩, hlt⟩, hlt⟩

theorem Rest.rel {h : List Nat} {i : Nat} {w : List Ev} (hr : Rest rank h (.rel i :: w)) :
    ∃ h', h = i :: h' ∧ Rest rank h' w ∧ ∀ j ∈ h', rank i < rank j := by
  cases h with
  | nil => cases hr
  | cons j h =>
    obtain ⟨u, v, he, hu, hv, hj⟩ := hr
    cases hu with
    | nil =>
      simp only [List.nil_append, List.cons.injEq, Ev.rel.injEq] at he
      obtain ⟨rfl, rfl⟩ := he
      exact ⟨h, rfl, hv, hj⟩
    | block => simp at he

theorem Rest.nil {h : List Nat} (hr : Rest rank h []) : h = [] := by
  cases h with
  | nil => rfl
  | cons j h =>
    obtain ⟨u, v, he, _⟩ := hr
    simp at he

theorem inv_step {s s' : Sys} {h : Nat → List Nat} (hi : s.Inv rank h) (hs : s.Step s') :
    ∃ h', s'.Inv rank h' := by
  obtain ⟨hr, ho⟩ := hi
  cases hs with
  | @acquire t i w ht hfree =>
    refine ⟨upd h t (i :: h t), fun t' => ?_, fun j t' => ?_⟩
    · by_cases e : t' = t
      · subst e
        simp only [upd, if_true]
        exact (Rest.acq (ht ▸ hr t')).1
      · simp only [upd, if_neg e]; exact hr t'
    · by_cases e : t' = t <;> by_cases e' : j = i
      · subst e e'; simp [upd]
      · subst e; simp [upd, e', ho]
      · subst e'
        simp only [upd, if_true, if_neg e, ← ho, hfree, Option.some.injEq]
        exact ⟨fun h => absurd h.symm e, fun h => by cases h⟩
      · simp [upd, e, e', ho]
  | @release t i w ht hown =>
    obtain ⟨h', he, hr', hlt⟩ := Rest.rel (ht ▸ hr t)
    refine ⟨upd h t h', fun t' => ?_, fun j t' => ?_⟩
    · by_cases e : t' = t
      · subst e; simp only [upd, if_true]; exact hr'
      · simp only [upd, if_neg e]; exact hr t'
    · have hi' : i ∉ h' := fun hm => Nat.lt_irrefl _ (hlt i hm)
      by_cases e : t' = t <;> by_cases e' : j = i
      · subst e e'; simp [upd, hi']
      · subst e; simp [upd, e', ho, he]
      · subst e'
        simp only [upd, if_true, if_neg e, ← ho, hown, Option.some.injEq]
        exact ⟨fun h => (nomatch h), fun h => absurd h.symm e⟩
      · simp [upd, e, e', ho]

theorem inv_run {n : Nat} {w : Nat → List Ev} {s : Sys} (hw : ∀ t, Nested rank (fun _ => True) (w t))
    (hs : Sys.Run n (Sys.start w) s) : ∃ h, s.Inv rank h := by
  generalize he : Sys.start w = s0 at hs
  induction hs with
  | refl => subst he; exact ⟨fun _ => [], hw, fun i t => by simp [Sys.start]⟩
  | step _ h1 ih =>
    obtain ⟨h, hi⟩ := ih he
    exact inv_step hi h1

theorem inv_progress {s : Sys} {h : Nat → List Nat} (hi : s.Inv rank h) {t : Nat}
    (ht : s.todo t ≠ []) : ∃ s', s.Step s' := by
  obtain ⟨hr, ho⟩ := hi
  have key : ∀ m i t w, rank i ≤ m → s.todo t = .acq i :: w → ∃ s', s.Step s' := by
    intro m
    induction m with
    | zero =>
      intro i t w hm ht
      cases hown : s.owner i with
      | none => exact ⟨_, .acquire ht hown⟩
      | some t' =>
        have hmem := (ho i t').mp hown
        cases htd : s.todo t' with
        | nil => rw [Rest.nil (rank := rank) (h := h t') (htd ▸ hr t')] at hmem; cases hmem
        | cons e w' =>
          cases e with
          | rel j =>
            obtain ⟨h', he, _⟩ := Rest.rel (htd ▸ hr t')
            exact ⟨_, .release htd ((ho j t').mpr (by simp [he]))⟩
          | acq j =>
            have := (Rest.acq (htd ▸ hr t')).2 i hmem
            omega
    | succ m ih =>
      intro i t w hm ht
      cases hown : s.owner i with
      | none => exact ⟨_, .acquire ht hown⟩
      | some t' =>
        have hmem := (ho i t').mp hown
        cases htd : s.todo t' with
        | nil => rw [Rest.nil (rank := rank) (h := h t') (htd ▸ hr t')] at hmem; cases hmem
        | cons e w' =>
          cases e with
          | rel j =>
            obtain ⟨h', he, _⟩ := Rest.rel (htd ▸ hr t')
            exact ⟨_, .release htd ((ho j t').mpr (by simp [he]))⟩
          | acq j =>
            have := (Rest.acq (htd ▸ hr t')).2 i hmem
            exact ih j t' w' (by omega) htd
  cases htd : s.todo t with
  | nil => exact absurd htd ht
  | cons e w =>
    cases e with
    | acq i => exact key (rank i) i t w (Nat.le_refl _) htd
    | rel i =>
      obtain ⟨h', he, _⟩ := Rest.rel (htd ▸ hr t)
      exact ⟨_, .release htd ((ho i t).mpr (by simp [he]))⟩

theorem totalWork_upd (w : Nat → List Ev) (t : Nat) (v : List Ev) (e : Ev) (h : w t = e :: v) (k : Nat) :
    totalWork w k = totalWork (upd w t v) k + (if t < k then 1 else 0) := by
  induction k with
  | zero => simp [totalWork]
  | succ k ih =>
    simp only [totalWork, ih]
    by_cases e1 : k = t
    · subst e1; simp [upd, h]; omega
    · simp only [upd, if_neg e1]
      by_cases e2 : t < k
      · simp [e2, Nat.lt_succ_of_lt e2]; omega
      · have : ¬ t < k + 1 := by omega
        simp [e2, this]

/-- Each operation is one less to do. -/
theorem run_work {n k : Nat} {w : Nat → List Ev} {s : Sys} (hk : ∀ t, k ≤ t → w t = [])
    (hs : Sys.Run n (Sys.start w) s) :
    n + totalWork s.todo k = totalWork w k ∧ ∀ t, k ≤ t → s.todo t = [] := by
  generalize he : Sys.start w = s0 at hs
  induction hs with
  | refl => subst he; exact ⟨Nat.zero_add _, hk⟩
  | step _ h1 ih =>
    obtain ⟨ih1, ih2⟩ := ih he
    cases h1 with
    | @acquire t i v ht _ =>
      have hlt : t < k := Nat.lt_of_not_le fun h => by rw [ih2 t h] at ht; cases ht
      have := totalWork_upd _ t v _ ht k
      simp only [hlt, if_true] at this
      refine ⟨by dsimp only; omega, fun t' h' => ?_⟩
      have : t' ≠ t := by omega
      simp only [upd, if_neg this]; exact ih2 t' h'
    | @release t i v ht _ =>
      have hlt : t < k := Nat.lt_of_not_le fun h => by rw [ih2 t h] at ht; cases ht
      have := totalWork_upd _ t v _ ht k
      simp only [hlt, if_true] at this
      refine ⟨by dsimp only; omega, fun t' h' => ?_⟩
      have : t' ≠ t := by omega
      simp only [upd, if_neg this]; exact ih2 t' h'

theorem totalWork_zero {w : Nat → List Ev} {k : Nat} : totalWork w k = 0 ↔ ∀ t, t < k → w t = [] := by
  induction k with
  | zero => simp [totalWork]
  | succ k ih =>
    simp only [totalWork, Nat.add_eq_zero_iff, ih, List.length_eq_zero_iff]
    constructor
    · rintro ⟨h1, h2⟩ t ht
      rcases Nat.lt_succ_iff_lt_or_eq.mp ht with h | rfl
      · exact h1 t h
      · exact h2
    · exact fun h => ⟨fun t ht => h t (by omega), h k (by omega)⟩

/-! ## One thread -/

/-- What a thread holding `h` still has to do, no order being assumed. -/
def Rest0 : List Nat → List Ev → Prop
  | [], w => Balanced w
  | i :: h, w => ∃ u v, w = u ++ .rel i :: v ∧ Balanced u ∧ Rest0 h v

theorem Rest0.acq {h : List Nat} {i : Nat} {w : List Ev} (hr : Rest0 h (.acq i :: w)) :
    Rest0 (i :: h) w := by
  cases h with
  | nil =>
    cases hr with
    | block hu hv => exact ⟨_, _, rfl, hu, hv⟩
  | cons j h =>
    obtain ⟨u, v, he, hu, hv⟩ := hr
    cases hu with
    | nil => simp at he
    | block hu1 hu2 =>
      simp only [List.cons_append, List.append_assoc, List.cons.injEq, Ev.acq.injEq] at he
      obtain ⟨rfl, rfl⟩ := he
      exact ⟨_, _, rfl, hu1, ⟨_, _, rfl, hu2, hv⟩⟩

theorem Rest0.rel {h : List Nat} {i : Nat} {w : List Ev} (hr : Rest0 h (.rel i :: w)) :
    ∃ h', h = i :: h' ∧ Rest0 h' w := by
  cases h with
  | nil => cases hr
  | cons j h =>
    obtain ⟨u, v, he, hu, hv⟩ := hr
    cases hu with
    | nil =>
      simp only [List.nil_append, List.cons.injEq, Ev.rel.injEq] at he
      obtain ⟨rfl, rfl⟩ := he
      exact ⟨h, rfl, hv⟩
    | block => simp at he

theorem Sys.Run.head {n : Nat} {s s' : Sys} (h : Sys.Run (n + 1) s s') :
    ∃ s1, s.Step s1 ∧ Sys.Run n s1 s' := by
  generalize hm : n + 1 = m at h
  induction h generalizing n with
  | refl => cases hm
  | @step k s s2 s3 hr hs ih =>
    cases k with
    | zero => cases hr; cases hm; exact ⟨_, hs, .refl _⟩
    | succ k =>
      obtain ⟨s1, h1, h2⟩ := ih rfl
      cases hm
      exact ⟨s1, h1, .step h2 hs⟩

theorem Sys.Run.cons {n : Nat} {s s1 s' : Sys} (hs : s.Step s1) (h : Sys.Run n s1 s') :
    Sys.Run (n + 1) s s' := by
  induction h with
  | refl => exact .step (.refl _) hs
  | step _ h1 ih => exact .step (ih hs) h1

theorem upd_alone (e : Ev) (w : List Ev) : upd (alone (e :: w)) 0 w = alone w := by
  funext t
  by_cases h : t = 0 <;> simp [upd, alone, h]

theorem alone_run {w : List Ev} {h : List Nat} {own : Nat → Option Nat} (hr : Rest0 h w)
    (hn : h.Nodup) (ho : ∀ i, own i = if i ∈ h then some 0 else none) :
    (∃ s, Sys.Run w.length ⟨own, alone w⟩ s) ↔ NoReentry h w := by
  induction w generalizing h own with
  | nil => exact ⟨fun _ => trivial, fun _ => ⟨_, .refl _⟩⟩
  | cons e w ih =>
    cases e with
    | acq i =>
      simp only [NoReentry, List.length_cons]
      have hu : ∀ j, i ∉ h → upd own i (some 0) j = if j ∈ i :: h then some 0 else none := by
        intro j _
        by_cases e : j = i <;> simp [upd, e, ho]
      constructor
      · rintro ⟨s, hs⟩
        obtain ⟨s1, h1, h2⟩ := hs.head
        cases h1 with
        | @acquire t j v ht hf =>
          have ht0 : t = 0 := by
            by_cases e : t = 0
            · exact e
            · simp [alone, e] at ht
          subst ht0
          simp only [alone, if_true, List.cons.injEq, Ev.acq.injEq] at ht
          obtain ⟨rfl, rfl⟩ := ht
          have hi : i ∉ h := by
            intro hm
            simp [ho, hm] at hf
          dsimp only at h2
          rw [upd_alone] at h2
          exact ⟨hi, (ih hr.acq (List.nodup_cons.mpr ⟨hi, hn⟩) (fun j => hu j hi)).mp ⟨_, h2⟩⟩
        | @release t j v ht hf =>
          have ht0 : t = 0 := by
            by_cases e : t = 0
            · exact e
            · simp [alone, e] at ht
          subst ht0
          simp [alone] at ht
      · rintro ⟨hi, h2⟩
        obtain ⟨s, hs⟩ := (ih hr.acq (List.nodup_cons.mpr ⟨hi, hn⟩) (fun j => hu j hi)).mpr h2
        refine ⟨s, .cons (.acquire (t := 0) (i := i) (w := w) rfl ?_) ?_⟩
        · simp [ho, hi]
        · dsimp only; rw [upd_alone]; exact hs
    | rel i =>
      obtain ⟨h', rfl, hr'⟩ := hr.rel
      obtain ⟨hi, hn'⟩ := List.nodup_cons.mp hn
      simp only [NoReentry, List.length_cons, List.erase_cons_head]
      have hu : ∀ j, upd own i none j = if j ∈ h' then some 0 else none := by
        intro j
        by_cases e : j = i
        · subst e; simp [upd, hi]
        · simp [upd, e, ho]
      constructor
      · rintro ⟨s, hs⟩
        obtain ⟨s1, h1, h2⟩ := hs.head
        cases h1 with
        | @acquire t j v ht hf =>
          have ht0 : t = 0 := by
            by_cases e : t = 0
            · exact e
            · simp [alone, e] at ht
          subst ht0
          simp [alone] at ht
        | @release t j v ht hf =>
          have ht0 : t = 0 := by
            by_cases e : t = 0
            · exact e
            · simp [alone, e] at ht
          subst ht0
          simp only [alone, if_true, List.cons.injEq, Ev.rel.injEq] at ht
          obtain ⟨rfl, rfl⟩ := ht
          dsimp only at h2
          rw [upd_alone] at h2
          exact (ih hr' hn' hu).mp ⟨_, h2⟩
      · intro h2
        obtain ⟨s, hs⟩ := (ih hr' hn' hu).mpr h2
        refine ⟨s, .cons (.release (t := 0) (i := i) (w := w) rfl ?_) ?_⟩
        · simp [ho]
        · dsimp only; rw [upd_alone]; exact hs

end Neure
