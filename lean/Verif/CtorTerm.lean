import Verif.Term
import Verif.CtorInv
/-!
# Constructing: forward movement and termination
-/

namespace Neure

set_option linter.unusedSectionVars false

variable {ι β σ : Type} [Item ι] {G : Rules ι β} {H : Handler ι β σ} {pol : Option (Pat ι β)}
  {d : List ι}

/-! ## Conditions -/

/-- The components of `p` that `construct` matches through `ctx.try_mat` instead of
constructing them: delimiters, tests and separators; a leaf matches itself. -/
def MatchPart (m : Pat ι β) : Pat ι β → Prop
  | .pat q => m = q
  | .ifThen _ t _ => m = t
  | .pre a _ => m = a
  | .suf _ b => m = b
  | .enclose a _ c => m = a ∨ m = c
  | .sepOnce _ b _ => m = b
  | .sep _ s _ _ | .sep2 _ s _ _ _ | .sepCollect _ s _ _ => m = s
  | .thn _ _ | .or _ _ | .longest _ _ | .opt _ | .choice _ _ | .ltm _ _ | .rep _ _ | .rep2 _ _ _
  | .collect _ _ | .branch _ _ _ | .map _ _ | .dthen _ _ | .cell _ => False
  | p => m = p

/-- A failure of the match `m` leaves the offset between the old one and the end; so
does a success. -/
def MovesForward (G : Rules ι β) (pol : Option (Pat ι β)) (d : List ι) (m : Pat ι β) : Prop :=
  ∀ o, o ≤ blen d → (∀ s o', Runs G pol d m o (.ok s o') → o ≤ o' ∧ o' ≤ blen d) ∧
    (∀ e o', Runs G pol d m o (.err e o') → o ≤ o' ∧ o' ≤ blen d)

/-- The closure of `dyn_then_ctor` does not move backwards or out of bounds. -/
def DynForward (d : List ι) : Pat ι β → Prop
  | .dthen _ f => ∀ o v, o ≤ blen d → match f d o v with
      | .ok _ o' => o ≤ o' ∧ o' ≤ blen d
      | .err _ o' => o ≤ o' ∧ o' ≤ blen d
      | .panic => True
  | _ => True

/-- Local condition for forward movement of `construct`. -/
def CForward (G : Rules ι β) (pol : Option (Pat ι β)) (d : List ι) (p : Pat ι β) : Prop :=
  (∀ m, MatchPart m p → MovesForward G pol d m) ∧ DynForward d p

/-- Constructing `p` never succeeds without moving. -/
def CEats (G : Rules ι β) (H : Handler ι β σ) (pol : Option (Pat ι β)) (d : List ι) (p : Pat ι β) :
    Prop :=
  ∀ o st v st' o', o ≤ blen d → Constructs G H pol d p st o (.ok v st' o') → o < o'

/-- `m` never matches the empty string in `d`. -/
def EatsIn (G : Rules ι β) (pol : Option (Pat ι β)) (d : List ι) (m : Pat ι β) : Prop :=
  ∀ o s o', o ≤ blen d → Runs G pol d m o (.ok s o') → o < o'

/-- `CFirst G H pol d q p`: while constructing `p`, `q` may be constructed before
anything has been consumed. -/
def CFirst (G : Rules ι β) (H : Handler ι β σ) (pol : Option (Pat ι β)) (d : List ι) (q : Pat ι β) :
    Pat ι β → Prop
  | .opt p | .rep p _ | .rep2 p _ _ | .collect p _ | .map p _ | .suf p _
  | .sep p _ _ _ | .sep2 p _ _ _ _ | .sepCollect p _ _ _ => q = p
  | .pre a p | .enclose a p _ => ¬ EatsIn G pol d a ∧ q = p
  | .thn a b => q = a ∨ (¬ CEats G H pol d a ∧ q = b)
  | .or a b | .longest a b | .branch _ a b => q = a ∨ q = b
  | .ifThen a t b | .sepOnce a t b =>
    q = a ∨ (¬ CEats G H pol d a ∧ ¬ EatsIn G pol d t ∧ q = b)
  | .choice _ items | .ltm _ items => ∃ it ∈ items, q = it.1
  | .dthen p f => q = p ∨ (¬ CEats G H pol d p ∧ ∃ o v o', f d o v = .ok q o')
  | .cell i => G i = some q
  | _ => False

/-- Unbounded loops make progress in every round. -/
def CLoopsEat (G : Rules ι β) (H : Handler ι β σ) (pol : Option (Pat ι β)) (d : List ι) :
    Pat ι β → Prop
  | .rep q r => r.hi ≠ .unb ∨ CEats G H pol d q
  | .collect q _ => CEats G H pol d q
  | .sep q s _ _ | .sepCollect q s _ _ => CEats G H pol d q ∨ EatsIn G pol d s
  | _ => True

/-- The matched components return. -/
def PartsReturn (G : Rules ι β) (pol : Option (Pat ι β)) (d : List ι) (p : Pat ι β) : Prop :=
  ∀ m, MatchPart m p → ∀ o, o ≤ blen d → ∃ r, Runs G pol d m o r

/-! ## Forward movement -/

/-- The offset of a result lies between `b` and the end of the input. -/
def Post (d : List ι) (b : Nat) {α : Type} (x : Option (CRes σ α)) : Prop :=
  ∀ r, x = some r → match r with
    | .ok _ _ o => b ≤ o ∧ o ≤ blen d
    | .err _ _ o => b ≤ o ∧ o ≤ blen d
    | .panic => True

theorem Post.none {α : Type} {b : Nat} : Post (σ := σ) (α := α) d b none := fun _ h => by cases h
theorem Post.panic {α : Type} {b : Nat} : Post (σ := σ) (α := α) d b (some .panic) :=
  fun r h => by cases h; trivial
theorem Post.ok {α : Type} {b : Nat} {a : α} {st : σ} {o : Nat} (h : b ≤ o) (h' : o ≤ blen d) :
    Post d b (some (.ok a st o)) := fun r hr => by cases hr; exact ⟨h, h'⟩
theorem Post.err {α : Type} {b : Nat} {e : Error} {st : σ} {o : Nat} (h : b ≤ o) (h' : o ≤ blen d) :
    Post (α := α) d b (some (.err e st o)) := fun r hr => by cases hr; exact ⟨h, h'⟩

theorem Post.mono {α : Type} {b b' : Nat} {x : Option (CRes σ α)} (h : Post d b x) (hb : b' ≤ b) :
    Post d b' x := by
  intro r hr
  have := h r hr
  cases r <;> simp only at this ⊢ <;> omega

theorem Post.caseC {α γ : Type} {b : Nat} {x : Option (CRes σ α)}
    {k : α → σ → Nat → Option (CRes σ γ)} {kE : Error → σ → Nat → Option (CRes σ γ)}
    (h : Post d b x) (hk : ∀ a st o, b ≤ o → o ≤ blen d → Post d b (k a st o))
    (hE : ∀ e st o, b ≤ o → o ≤ blen d → Post d b (kE e st o)) : Post d b (caseC x k kE) := by
  cases x with
  | none => exact .none
  | some v => cases v with
    | ok a st o => have := h _ rfl; exact hk a st o this.1 this.2
    | err e st o => have := h _ rfl; exact hE e st o this.1 this.2
    | panic => exact .panic

theorem Post.caseM {α γ : Type} {b o0 : Nat} {x : Option (Res α)}
    {k : α → Nat → Option (CRes σ γ)} {kE : Error → Nat → Option (CRes σ γ)}
    (hb : b ≤ o0)
    (h : (∀ a o, x = some (.ok a o) → o0 ≤ o ∧ o ≤ blen d) ∧
      (∀ e o, x = some (.err e o) → o0 ≤ o ∧ o ≤ blen d))
    (hk : ∀ a o, b ≤ o → o ≤ blen d → Post d b (k a o))
    (hE : ∀ e o, b ≤ o → o ≤ blen d → Post d b (kE e o)) : Post d b (caseM x k kE) := by
  cases x with
  | none => exact .none
  | some v => cases v with
    | ok a o => have := h.1 _ _ rfl; exact hk a o (by omega) this.2
    | err e o => have := h.2 _ _ rfl; exact hE e o (by omega) this.2
    | panic => exact .panic

theorem Post.conFinish {b : Nat} {ok : Nat → Bool} {e : Error} {beg cnt : Nat}
    {w : List (Val β) → Val β} {vals : List (Val β)} {st : σ} {o : Nat} (hb : b ≤ beg)
    (hb' : beg ≤ blen d) (h : b ≤ o) (h' : o ≤ blen d) :
    Post d b (Neure.conFinish ok e beg w cnt vals st o) := by
  unfold Neure.conFinish; split
  · exact .ok h h'
  · exact .err hb hb'

section Loops

variable {cn : Pat ι β → σ → Nat → Option (CRes σ (Val β))} {p : Pat ι β} {b : Nat}
  {more room : Nat → Bool} {fin : Nat → List (Val β) → σ → Nat → Option (CRes σ (Val β))}

theorem conRep_post
    (hc' : ∀ st o, o ≤ blen d → Post d o (cn p st o))
    (hf : ∀ c vs st o, b ≤ o → o ≤ blen d → Post d b (fin c vs st o)) (n cnt : Nat)
    (vals : List (Val β)) (st : σ) (o : Nat) (h : b ≤ o) (h' : o ≤ blen d) :
    Post d b (conRep cn p more room fin n cnt vals st o) := by
  induction n generalizing cnt vals st o with
  | zero => exact .none
  | succ n ih =>
    simp only [conRep]
    split
    · refine Post.caseC ((hc' st o h').mono h) (fun v st1 o1 h1 h2 => ?_) (fun _ _ _ h1 h2 => hf _ _ _ _ h1 h2)
      split
      · exact ih _ _ _ _ h1 h2
      · exact .panic
    · exact hf _ _ _ _ h h'

theorem conSep_post {ms : Nat → Option (Res Span)} {skip : Bool}
    (hc' : ∀ st o, o ≤ blen d → Post d o (cn p st o))
    (hm : ∀ o, o ≤ blen d → (∀ a o', ms o = some (.ok a o') → o ≤ o' ∧ o' ≤ blen d) ∧
      (∀ e o', ms o = some (.err e o') → o ≤ o' ∧ o' ≤ blen d))
    (hf : ∀ c vs st o, b ≤ o → o ≤ blen d → Post d b (fin c vs st o)) (n cnt : Nat)
    (vals : List (Val β)) (st : σ) (o : Nat) (h : b ≤ o) (h' : o ≤ blen d) :
    Post d b (conSep cn ms p skip more room fin n cnt vals st o) := by
  induction n generalizing cnt vals st o with
  | zero => exact .none
  | succ n ih =>
    simp only [conSep]
    split
    · refine Post.caseC ((hc' st o h').mono h) (fun v st1 o1 h1 h2 => ?_)
        (fun _ _ _ h1 h2 => hf _ _ _ _ h1 h2)
      refine Post.caseM h1 (hm o1 h2) (fun _ o2 h3 h4 => ?_) (fun _ o2 h3 h4 => ?_)
      · split
        · exact ih _ _ _ _ h3 h4
        · exact .panic
      · split
        · split
          · exact hf _ _ _ _ h3 h4
          · exact .panic
        · exact hf _ _ _ _ h3 h4
    · exact hf _ _ _ _ h h'

theorem conSepCollect_post {ms : Nat → Option (Res Span)} {skip : Bool}
    (hc' : ∀ st o, o ≤ blen d → Post d o (cn p st o))
    (hm : ∀ o, o ≤ blen d → (∀ a o', ms o = some (.ok a o') → o ≤ o' ∧ o' ≤ blen d) ∧
      (∀ e o', ms o = some (.err e o') → o ≤ o' ∧ o' ≤ blen d))
    (hf : ∀ c vs st o, b ≤ o → o ≤ blen d → Post d b (fin c vs st o)) (n : Nat) (ended : Bool)
    (cnt : Nat) (vals : List (Val β)) (st : σ) (o : Nat) (h : b ≤ o) (h' : o ≤ blen d) :
    Post d b (conSepCollect cn ms p skip fin n ended cnt vals st o) := by
  induction n generalizing ended cnt vals st o with
  | zero => exact .none
  | succ n ih =>
    simp only [conSepCollect]
    refine Post.caseC ((hc' st o h').mono h) (fun v st1 o1 h1 h2 => ?_)
      (fun _ _ _ h1 h2 => hf _ _ _ _ h1 h2)
    refine Post.caseM h1 (hm o1 h2) (fun _ o2 h3 h4 => ?_) (fun _ o2 h3 h4 => ?_)
    · split
      · exact hf _ _ _ _ h3 h4
      · exact ih _ _ _ _ _ h3 h4
    · split
      · exact hf _ _ _ _ h3 h4
      · split
        · exact ih _ _ _ _ _ h3 h4
        · exact hf _ _ _ _ h3 h4

end Loops

theorem conChoice_post {cn : Pat ι β → σ → Nat → Option (CRes σ (Val β))} {e : Error} {beg : Nat}
    {items : List (Pat ι β × Option (Val β))}
    (hc : ∀ it ∈ items, ∀ st, Post d beg (cn it.1 st beg)) (hb : beg ≤ blen d) (st : σ) :
    Post d beg (conChoice cn e beg items st beg) := by
  induction items generalizing st with
  | nil => exact .err (Nat.le_refl _) hb
  | cons it items ih =>
    simp only [conChoice]
    exact Post.caseC (hc it (by simp) st) (fun _ _ _ h h' => .ok h h')
      (fun _ st1 _ _ _ => ih (fun it h => hc it (List.mem_cons_of_mem _ h)) st1)

theorem conLtm_post {cn : Pat ι β → σ → Nat → Option (CRes σ (Val β))} {e : Error} {beg : Nat}
    {items : List (Pat ι β × Option (Val β))}
    (hc : ∀ it ∈ items, ∀ st, Post d beg (cn it.1 st beg)) (best : Option (Val β)) (stop : Nat)
    (st : σ) (o : Nat) (h : beg ≤ o) (h' : o ≤ blen d) :
    Post d beg (conLtm cn e beg items best stop st o) := by
  induction items generalizing best stop st o with
  | nil => cases best
           · exact .err h h'
           · exact .ok h h'
  | cons it items ih =>
    have ih := ih fun it h => hc it (List.mem_cons_of_mem _ h)
    simp only [conLtm]
    refine Post.caseC (hc it (by simp) st) (fun _ _ _ h1 h2 => ?_) (fun _ _ _ h1 h2 => ih _ _ _ _ h1 h2)
    split
    · exact ih _ _ _ _ h1 h2
    · exact ih _ _ _ _ h1 h2

/-- `construct` never moves backwards or out of bounds. -/
theorem con_post (n : Nat) {p : Pat ι β} (hp : CAll G (CForward G pol d) p) (st : σ) (o : Nat)
    (ho : o ≤ blen d) : Post d o (con G H n pol d p st o) := by
  induction n generalizing p st o with
  | zero => exact .none
  | succ n ih =>
    have C : ∀ q, CChild G q p → ∀ st o, o ≤ blen d → Post d o (con G H n pol d q st o) :=
      fun q hq st o ho => ih (hp.child hq) st o ho
    have M : ∀ m, MatchPart m p → ∀ k o, o ≤ blen d →
        (∀ a o', tryMat G k pol d m o = some (.ok a o') → o ≤ o' ∧ o' ≤ blen d) ∧
        (∀ e o', tryMat G k pol d m o = some (.err e o') → o ≤ o' ∧ o' ≤ blen d) := by
      intro m hm k o ho
      have := hp.self.1 m hm o ho
      exact ⟨fun a o' h => this.1 a o' ⟨k, h⟩, fun e o' h => this.2 e o' ⟨k, h⟩⟩
    have inv : ∀ m, MatchPart m p → ∀ k, Post d o (invokeK H d st (tryMat G k pol d m o)) := by
      intro m hm k
      refine Post.caseM (Nat.le_refl _) (M m hm k o ho) (fun s o' h h' => ?_) (fun _ _ h h' => .err h h')
      split
      · exact .ok h h'
      · exact .err h h'
      · exact .panic
    have R := Nat.le_refl o
    have F : ∀ (ok : Nat → Bool) (e : Error) (w : List (Val β) → Val β) c vs (st : σ) o', o ≤ o' → o' ≤ blen d →
        Post d o (conFinish ok e o w c vs st o') :=
      fun ok e w c vs st o' h h' => .conFinish R ho h h'
    cases p
    case empty => exact inv _ rfl _
    case fail => exact inv _ rfl _
    case start => exact inv _ rfl _
    case anchorEnd => exact inv _ rfl _
    case consume => exact inv _ rfl _
    case consumeAll => exact inv _ rfl _
    case lit => exact inv _ rfl _
    case native => exact inv _ rfl _
    case once => exact inv _ rfl _
    case many1 => exact inv _ rfl _
    case optU => exact inv _ rfl _
    case many0 => exact inv _ rfl _
    case between => exact inv _ rfl _
    case times => exact inv _ rfl _
    case thenU => exact inv _ rfl _
    case assert => exact inv _ rfl _
    case build => exact inv _ rfl _
    case pat q => exact inv q rfl _
    case thn a b =>
      simp only [con, conStep]
      exact .caseC (C a (.inl rfl) st o ho) (fun _ st1 o1 h h' =>
        .caseC ((C b (.inr rfl) st1 o1 h').mono h) (fun _ _ _ h h' => .ok h h') (fun _ _ _ _ _ => .err R ho))
        (fun _ _ _ _ _ => .err R ho)
    case ifThen a t b =>
      simp only [con, conStep]
      refine .caseC (C a (.inl rfl) st o ho) (fun _ st1 o1 h h' => ?_) (fun _ _ _ _ _ => .err R ho)
      exact .caseM h (M t rfl n o1 h') (fun _ o2 h h' =>
        .caseC ((C b (.inr rfl) st1 o2 h').mono h) (fun _ _ _ h h' => .ok h h') (fun _ _ _ _ _ => .err R ho))
        (fun _ _ _ _ => .ok h h')
    case pre a b =>
      simp only [con, conStep]
      exact .caseM R (M a rfl n o ho) (fun _ o1 h h' =>
        .caseC ((C b rfl st o1 h').mono h) (fun _ _ _ h h' => .ok h h') (fun _ _ _ _ _ => .err R ho))
        (fun _ _ _ _ => .err R ho)
    case suf a b =>
      simp only [con, conStep]
      exact .caseC (C a rfl st o ho) (fun _ st1 o1 h h' =>
        .caseM h (M b rfl n o1 h') (fun _ _ h h' => .ok h h') (fun _ _ _ _ => .err R ho))
        (fun _ _ _ _ _ => .err R ho)
    case enclose a b c =>
      simp only [con, conStep]
      exact .caseM R (M a (.inl rfl) n o ho) (fun _ o1 h h' =>
        .caseC ((C b rfl st o1 h').mono h) (fun _ _ o2 h h' =>
          .caseM h (M c (.inr rfl) n o2 h') (fun _ _ h h' => .ok h h') (fun _ _ _ _ => .err R ho))
          (fun _ _ _ _ _ => .err R ho))
        (fun _ _ _ _ => .err R ho)
    case sepOnce a b c =>
      simp only [con, conStep]
      refine .caseC (C a (.inl rfl) st o ho) (fun _ st1 o1 h h' => ?_) (fun _ _ _ _ _ => .err R ho)
      exact .caseM h (M b rfl n o1 h') (fun _ o2 h h' =>
        .caseC ((C c (.inr rfl) st1 o2 h').mono h) (fun _ _ _ h h' => .ok h h') (fun _ _ _ _ _ => .err R ho))
        (fun _ _ _ _ => .err R ho)
    case or a b =>
      simp only [con, conStep]
      exact .caseC (C a (.inl rfl) st o ho) (fun _ _ _ h h' => .ok h h') (fun _ st1 _ _ _ =>
        .caseC (C b (.inr rfl) st1 o ho) (fun _ _ _ h h' => .ok h h') (fun _ _ _ _ _ => .err R ho))
    case longest a b =>
      simp only [con, conStep]
      refine .caseC (C a (.inl rfl) st o ho) (fun _ st1 o1 h h' => ?_) (fun _ st1 _ _ _ => ?_)
      · refine .caseC (C b (.inr rfl) st1 o ho) (fun _ _ _ h1 h2 => ?_) (fun _ _ _ _ _ => .ok h h')
        split
        · exact .ok h h'
        · exact .ok h1 h2
      · exact .caseC (C b (.inr rfl) st1 o ho) (fun _ _ _ h1 h2 => .ok h1 h2) (fun _ _ _ _ _ => .err R ho)
    case opt q =>
      simp only [con, conStep]
      exact .caseC (C q rfl st o ho) (fun _ _ _ h h' => .ok h h') (fun _ _ _ _ _ => .ok R ho)
    case choice e items =>
      simp only [con, conStep]
      exact conChoice_post (fun it hit st => C it.1 ⟨it, hit, rfl⟩ st o ho) ho st
    case ltm e items =>
      simp only [con, conStep]
      exact conLtm_post (fun it hit st => C it.1 ⟨it, hit, rfl⟩ st o ho) _ _ st o R ho
    case rep q r =>
      simp only [con, conStep]
      exact conRep_post (C q rfl) (F _ _ _) _ _ _ _ _ R ho
    case rep2 q m n' =>
      simp only [con, conStep]
      exact conRep_post (C q rfl) (F _ _ _) _ _ _ _ _ R ho
    case collect q m =>
      simp only [con, conStep]
      exact conRep_post (C q rfl) (F _ _ _) _ _ _ _ _ R ho
    case sep q s skip m =>
      simp only [con, conStep]
      exact conSep_post (C q rfl) (M s rfl n) (F _ _ _) _ _ _ _ _ R ho
    case sep2 q s skip m n' =>
      simp only [con, conStep]
      exact conSep_post (C q rfl) (M s rfl n) (F _ _ _) _ _ _ _ _ R ho
    case sepCollect q s skip m =>
      simp only [con, conStep]
      exact conSepCollect_post (C q rfl) (M s rfl n) (F _ _ _) _ _ _ _ _ _ R ho
    case branch t a b =>
      simp only [con, conStep]
      cases t d o with
      | panic => exact .panic
      | err e => exact .err R ho
      | ok v =>
        refine .caseC (C (if v then a else b) ?_ st o ho) (fun _ _ _ h h' => .ok h h')
          (fun _ _ _ _ _ => .err R ho)
        cases v
        · exact .inr rfl
        · exact .inl rfl
    case map q f =>
      simp only [con, conStep]
      refine .caseC (C q rfl st o ho) (fun v _ _ h h' => ?_) (fun _ _ _ h h' => .err h h')
      cases f v with
      | panic => exact .panic
      | err e => exact .err h h'
      | ok v => exact .ok h h'
    case dthen q f =>
      simp only [con, conStep]
      refine .caseC (C q (.inl rfl) st o ho) (fun v st1 o1 h h' => ?_) (fun _ _ _ _ _ => .err R ho)
      have hd := hp.self.2 o1 v h'
      cases hf : f d o1 v with
      | panic => exact .panic
      | err e o2 => rw [hf] at hd; exact .err (by dsimp only at hd; omega) hd.2
      | ok p' o2 =>
        rw [hf] at hd
        dsimp only at hd
        exact .caseC ((C p' (.inr ⟨d, o1, v, o2, hf⟩) st1 o2 hd.2).mono (by omega)) (fun _ _ _ h h' => .ok h h')
          (fun _ _ _ _ _ => .err R ho)
    case cell i =>
      simp only [con, conStep]
      cases hG : G i with
      | none => exact .err R ho
      | some q => exact C q hG st o ho

/-! ## Termination -/

theorem caseC_ne {α γ : Type} {x : Option (CRes σ α)} {f : α → σ → Nat → Option (CRes σ γ)}
    {g : Error → σ → Nat → Option (CRes σ γ)} (h : x ≠ none)
    (hf : ∀ a st o, x = some (.ok a st o) → f a st o ≠ none)
    (hg : ∀ e st o, x = some (.err e st o) → g e st o ≠ none) : caseC x f g ≠ none := by
  cases x with
  | none => exact absurd rfl h
  | some v => cases v with
    | ok a st o => exact hf a st o rfl
    | err e st o => exact hg e st o rfl
    | panic => simp [caseC]

theorem caseM_ne {α γ : Type} {x : Option (Res α)} {f : α → Nat → Option (CRes σ γ)}
    {g : Error → Nat → Option (CRes σ γ)} (h : x ≠ none)
    (hf : ∀ a o, x = some (.ok a o) → f a o ≠ none)
    (hg : ∀ e o, x = some (.err e o) → g e o ≠ none) : caseM x f g ≠ none := by
  cases x with
  | none => exact absurd rfl h
  | some v => cases v with
    | ok a o => exact hf a o rfl
    | err e o => exact hg e o rfl
    | panic => simp [caseM]

theorem invokeK_ne {st : σ} {x : Option (Res Span)} (h : x ≠ none) :
    invokeK H d st x ≠ none := by
  refine caseM_ne h (fun s o _ => ?_) (fun _ _ _ => by simp)
  split <;> simp

theorem conFinish_ne (ok : Nat → Bool) (e : Error) (beg : Nat) (w : List (Val β) → Val β) (cnt : Nat)
    (vals : List (Val β)) (st : σ) (o : Nat) : conFinish ok e beg w cnt vals st o ≠ none := by
  unfold conFinish; split <;> simp

section Loops

variable {cn : Pat ι β → σ → Nat → Option (CRes σ (Val β))} {q : Pat ι β}
  {more room : Nat → Bool} {fin : Nat → List (Val β) → σ → Nat → Option (CRes σ (Val β))} {lo len : Nat}

theorem conRepL_ne (hfin : ∀ c vs st o, fin c vs st o ≠ none)
    (hq : ∀ st o, lo ≤ o → o ≤ len → cn q st o ≠ none)
    (hf : ∀ st o v st' o', lo ≤ o → o ≤ len → cn q st o = some (.ok v st' o') → o ≤ o' ∧ o' ≤ len)
    (h : (∀ st o v st' o', lo ≤ o → o ≤ len → cn q st o = some (.ok v st' o') → o < o') ∨
      ∃ N, ∀ c, N < c → more c = false)
    (cnt : Nat) (vals : List (Val β)) (st : σ) (o : Nat) (hlo : lo ≤ o) (ho : o ≤ len) :
    conRepL cn q more room fin cnt vals st o ≠ none := by
  rcases h with he | ⟨N, hN⟩
  · generalize hk : len - o = k
    induction k using Nat.strongRecOn generalizing cnt vals st o with
    | _ k ih =>
      rw [conRepL_eq]
      split
      · refine caseC_ne (hq st o hlo ho) (fun v st1 o' hs => ?_) (fun _ _ _ _ => hfin _ _ _ _)
        have h1 := hf st o v st1 o' hlo ho hs
        have h2 := he st o v st1 o' hlo ho hs
        split
        · exact ih (len - o') (by omega) _ _ _ _ (by omega) h1.2 rfl
        · simp
      · exact hfin _ _ _ _
  · generalize hk : N + 1 - cnt = k
    induction k generalizing cnt vals st o with
    | zero =>
      rw [conRepL_eq, if_neg]
      · exact hfin _ _ _ _
      · rw [hN cnt (by omega)]; simp
    | succ k ih =>
      rw [conRepL_eq]
      split
      · refine caseC_ne (hq st o hlo ho) (fun v st1 o' hs => ?_) (fun _ _ _ _ => hfin _ _ _ _)
        have h1 := hf st o v st1 o' hlo ho hs
        split
        · exact ih _ _ _ _ (by omega) h1.2 (by omega)
        · simp
      · exact hfin _ _ _ _

variable {ms : Nat → Option (Res Span)} {skip : Bool}

theorem conSepL_ne (hfin : ∀ c vs st o, fin c vs st o ≠ none)
    (hq : ∀ st o, lo ≤ o → o ≤ len → cn q st o ≠ none)
    (hf : ∀ st o v st' o', lo ≤ o → o ≤ len → cn q st o = some (.ok v st' o') → o ≤ o' ∧ o' ≤ len)
    (hs : ∀ o, lo ≤ o → o ≤ len → ms o ≠ none)
    (hsf : ∀ o sp o', lo ≤ o → o ≤ len → ms o = some (.ok sp o') → o ≤ o' ∧ o' ≤ len)
    (h : (∀ st o v st' o' sp o'', lo ≤ o → o ≤ len → cn q st o = some (.ok v st' o') →
        ms o' = some (.ok sp o'') → o < o'') ∨ ∃ N, ∀ c, N < c → more c = false)
    (cnt : Nat) (vals : List (Val β)) (st : σ) (o : Nat) (hlo : lo ≤ o) (ho : o ≤ len) :
    conSepL cn ms q skip more room fin cnt vals st o ≠ none := by
  have last : ∀ cnt vals (v : Val β) (st1 : σ) o2, (if skip then
      if room cnt then fin (cnt + 1) (vals ++ [v]) st1 o2 else some .panic
      else fin cnt vals st1 o2) ≠ none := by
    intro cnt vals v st1 o2
    split
    · split
      · exact hfin _ _ _ _
      · simp
    · exact hfin _ _ _ _
  rcases h with he | ⟨N, hN⟩
  · generalize hk : len - o = k
    induction k using Nat.strongRecOn generalizing cnt vals st o with
    | _ k ih =>
      rw [conSepL_eq]
      split
      · refine caseC_ne (hq st o hlo ho) (fun v st1 o' h1 => ?_) (fun _ _ _ _ => hfin _ _ _ _)
        have a := hf st o v st1 o' hlo ho h1
        refine caseM_ne (hs o' (by omega) a.2) (fun sp o'' h2 => ?_) (fun _ _ _ => last _ _ _ _ _)
        have b := he st o v st1 o' sp o'' hlo ho h1 h2
        have c := hsf o' sp o'' (by omega) a.2 h2
        split
        · exact ih (len - o'') (by omega) _ _ _ _ (by omega) c.2 rfl
        · simp
      · exact hfin _ _ _ _
  · generalize hk : N + 1 - cnt = k
    induction k generalizing cnt vals st o with
    | zero =>
      rw [conSepL_eq, if_neg]
      · exact hfin _ _ _ _
      · rw [hN cnt (by omega)]; simp
    | succ k ih =>
      rw [conSepL_eq]
      split
      · refine caseC_ne (hq st o hlo ho) (fun v st1 o' h1 => ?_) (fun _ _ _ _ => hfin _ _ _ _)
        have a := hf st o v st1 o' hlo ho h1
        refine caseM_ne (hs o' (by omega) a.2) (fun sp o'' h2 => ?_) (fun _ _ _ => last _ _ _ _ _)
        have c := hsf o' sp o'' (by omega) a.2 h2
        split
        · exact ih _ _ _ _ (by omega) c.2 (by omega)
        · simp
      · exact hfin _ _ _ _

theorem conSepCL_ne (hfin : ∀ c vs st o, fin c vs st o ≠ none)
    (hq : ∀ st o, lo ≤ o → o ≤ len → cn q st o ≠ none)
    (hf : ∀ st o v st' o', lo ≤ o → o ≤ len → cn q st o = some (.ok v st' o') → o ≤ o' ∧ o' ≤ len)
    (hs : ∀ o, lo ≤ o → o ≤ len → ms o ≠ none)
    (hsf : ∀ o, lo ≤ o → o ≤ len → (∀ sp o', ms o = some (.ok sp o') → o ≤ o' ∧ o' ≤ len) ∧
      (∀ e o', ms o = some (.err e o') → o ≤ o' ∧ o' ≤ len))
    (he : ∀ st o v st' o' sp o'', lo ≤ o → o ≤ len → cn q st o = some (.ok v st' o') →
        ms o' = some (.ok sp o'') → o < o'')
    (ended : Bool) (cnt : Nat) (vals : List (Val β)) (st : σ) (o : Nat) (hlo : lo ≤ o) (ho : o ≤ len) :
    conSepCL cn ms q skip fin ended cnt vals st o ≠ none := by
  have fin_round : ∀ cnt vals (st : σ) o, lo ≤ o → o ≤ len →
      conSepCL cn ms q skip fin true cnt vals st o ≠ none := by
    intro cnt vals st o hlo ho
    rw [conSepCL_eq]
    refine caseC_ne (hq st o hlo ho) (fun v st1 o' h1 => ?_) (fun _ _ _ _ => hfin _ _ _ _)
    have a := hf st o v st1 o' hlo ho h1
    refine caseM_ne (hs o' (by omega) a.2) (fun sp o'' h2 => ?_) (fun e o'' h2 => ?_)
    · rw [if_pos rfl]; exact hfin _ _ _ _
    · rw [if_pos rfl]; exact hfin _ _ _ _
  generalize hk : len - o = k
  induction k using Nat.strongRecOn generalizing ended cnt vals st o with
  | _ k ih =>
    rw [conSepCL_eq]
    refine caseC_ne (hq st o hlo ho) (fun v st1 o' h1 => ?_) (fun _ _ _ _ => hfin _ _ _ _)
    have a := hf st o v st1 o' hlo ho h1
    refine caseM_ne (hs o' (by omega) a.2) (fun sp o'' h2 => ?_) (fun e o'' h2 => ?_)
    · have b := he st o v st1 o' sp o'' hlo ho h1 h2
      have c := (hsf o' (by omega) a.2).1 sp o'' h2
      split
      · exact hfin _ _ _ _
      · exact ih (len - o'') (by omega) _ _ _ _ _ (by omega) c.2 rfl
    · have c := (hsf o' (by omega) a.2).2 e o'' h2
      split
      · exact hfin _ _ _ _
      · split
        · exact fin_round _ _ _ _ (by omega) c.2
        · exact hfin _ _ _ _

end Loops

theorem conChoice_ne {cn : Pat ι β → σ → Nat → Option (CRes σ (Val β))} {e : Error} {beg : Nat}
    {items : List (Pat ι β × Option (Val β))} (h : ∀ it ∈ items, ∀ st, cn it.1 st beg ≠ none)
    (st : σ) : conChoice cn e beg items st beg ≠ none := by
  induction items generalizing st with
  | nil => simp [conChoice]
  | cons it items ih =>
    simp only [conChoice]
    exact caseC_ne (h it (by simp) st) (fun _ _ _ _ => by simp)
      (fun _ st1 _ _ => ih (fun it' h' => h it' (List.mem_cons_of_mem _ h')) st1)

theorem conLtm_ne {cn : Pat ι β → σ → Nat → Option (CRes σ (Val β))} {e : Error} {beg : Nat}
    {items : List (Pat ι β × Option (Val β))} (h : ∀ it ∈ items, ∀ st, cn it.1 st beg ≠ none)
    (best : Option (Val β)) (stop : Nat) (st : σ) (o : Nat) :
    conLtm cn e beg items best stop st o ≠ none := by
  induction items generalizing best stop st o with
  | nil => cases best <;> simp [conLtm]
  | cons it items ih =>
    have ih := ih fun it' h' => h it' (List.mem_cons_of_mem _ h')
    simp only [conLtm]
    refine caseC_ne (h it (by simp) st) (fun _ _ _ _ => ?_) (fun _ _ _ _ => ih _ _ _ _)
    split
    · exact ih _ _ _ _
    · exact ih _ _ _ _

theorem caseT_ne {α γ : Type} {x : Out α} {f : α → Option (CRes σ γ)} {g : Error → Option (CRes σ γ)}
    (hf : ∀ a, f a ≠ none) (hg : ∀ e, g e ≠ none) : caseT x f g ≠ none := by
  cases x with
  | ok a => exact hf a
  | err e => exact hg e
  | panic => simp [caseT]

/-- One round of the induction, for arbitrary callbacks below the evaluator. -/
theorem conStepL_returns {mt : Pat ι β → Nat → Option (Res Span)} {leaf : Option (Res Span)}
    {cn : Pat ι β → σ → Nat → Option (CRes σ (Val β))} {p : Pat ι β} {R : Nat}
    (hmle : ∀ q o, Le (mt q o) (matL G pol d q o))
    (hcle : ∀ q st o, Le (cn q st o) (conL G H pol d q st o))
    (hfw : CAll G (CForward G pol d) p)
    (M : ∀ m, MatchPart m p → ¬ Leaf p → ∀ o, o ≤ blen d → mt m o ≠ none)
    (hleaf : Leaf p → leaf ≠ none)
    (hl : CLoopsEat G H pol d p)
    (hfirst : ∀ q, CFirst G H pol d q p → ∀ st o, o ≤ blen d → blen d - o ≤ R → cn q st o ≠ none)
    (hlater : ∀ q, CChild G q p → ∀ st o, o ≤ blen d → blen d - o < R → cn q st o ≠ none)
    (st : σ) (o : Nat) (ho : o ≤ blen d) (hR : blen d - o ≤ R) :
    conStepL G H mt leaf cn d p st o ≠ none := by
  have fw : ∀ q, CChild G q p → ∀ st o v st' o', o ≤ blen d →
      cn q st o = some (.ok v st' o') → o ≤ o' ∧ o' ≤ blen d := by
    intro q hq st o v st' o' ho h
    obtain ⟨n, hn⟩ := constructs_iff.mpr (hcle _ _ _ _ h)
    exact con_post n (hfw.child hq) st o ho _ hn
  have mf : ∀ m, MatchPart m p → ∀ o, o ≤ blen d →
      (∀ s o', mt m o = some (.ok s o') → o ≤ o' ∧ o' ≤ blen d) ∧
      (∀ e o', mt m o = some (.err e o') → o ≤ o' ∧ o' ≤ blen d) := by
    intro m hm' o ho
    have := hfw.self.1 m hm' o ho
    exact ⟨fun s o' h => this.1 s o' (runs_iff.mpr (hmle _ _ _ h)), fun e o' h => this.2 e o' (runs_iff.mpr (hmle _ _ _ h))⟩
  have here : ∀ q, CFirst G H pol d q p → ∀ st, cn q st o ≠ none :=
    fun q hq st => hfirst q hq st o ho hR
  have inv : Leaf p → invokeK H d st leaf ≠ none := fun h => invokeK_ne (hleaf h)
  have rep : ∀ (q : Pat ι β) (more room : Nat → Bool) (ok : Nat → Bool) (e : Error)
      (w : List (Val β) → Val β), CChild G q p → CFirst G H pol d q p →
      (CEats G H pol d q ∨ ∃ N, ∀ c, N < c → more c = false) →
      conRepL cn q more room (conFinish ok e o w) 0 [] st o ≠ none := by
    intro q more room ok e w hc hF h
    refine conRepL_ne (lo := o) (len := blen d) (conFinish_ne _ _ _ _)
      (fun st o1 h1 h2 => hfirst q hF st o1 h2 (by omega))
      (fun st o1 v st' o' _ h2 h3 => fw q hc st o1 v st' o' h2 h3) ?_ _ _ _ _ (Nat.le_refl _) ho
    rcases h with h | h
    · exact .inl fun st o1 v st' o' _ h2 h3 => h o1 st v st' o' h2 (constructs_iff.mpr (hcle _ _ _ _ h3))
    · exact .inr h
  have pair : ∀ (q s : Pat ι β), CChild G q p → MatchPart s p →
      (CEats G H pol d q ∨ EatsIn G pol d s) → ∀ st o1 v st' o' sp o'', o ≤ o1 → o1 ≤ blen d →
      cn q st o1 = some (.ok v st' o') → mt s o' = some (.ok sp o'') → o1 < o'' := by
    intro q s hc hms h st o1 v st' o' sp o'' h1 h2 h3 h4
    have a := fw q hc st o1 v st' o' h2 h3
    have b := (mf s hms o' a.2).1 sp o'' h4
    rcases h with h | h
    · have := h o1 st v st' o' h2 (constructs_iff.mpr (hcle _ _ _ _ h3)); omega
    · have := h o' sp o'' a.2 (runs_iff.mpr (hmle _ _ _ h4)); omega
  have sep : ∀ (q s : Pat ι β) (skip : Bool) (more room : Nat → Bool) (ok : Nat → Bool) (e : Error)
      (w : List (Val β) → Val β), CChild G q p → CFirst G H pol d q p → MatchPart s p → ¬ Leaf p →
      ((CEats G H pol d q ∨ EatsIn G pol d s) ∨ ∃ N, ∀ c, N < c → more c = false) →
      conSepL cn (mt s) q skip more room (conFinish ok e o w) 0 [] st o ≠ none := by
    intro q s skip more room ok e w hc hF hms hnl h
    refine conSepL_ne (lo := o) (len := blen d) (conFinish_ne _ _ _ _)
      (fun st o1 h1 h2 => hfirst q hF st o1 h2 (by omega))
      (fun st o1 v st' o' _ h2 h3 => fw q hc st o1 v st' o' h2 h3)
      (fun o1 _ h2 => M s hms hnl o1 h2) (fun o1 sp o' _ h2 h3 => (mf s hms o1 h2).1 sp o' h3)
      ?_ _ _ _ _ (Nat.le_refl _) ho
    rcases h with h | h
    · exact .inl (pair q s hc hms h)
    · exact .inr h
  have bnd : ∀ n : Nat, ∃ N, ∀ c, N < c → (fun c => decide (c ≤ n)) c = false :=
    fun n => ⟨n, fun c hc => by simp; omega⟩
  -- constructing `b` after `a` succeeded at `o`
  have next : ∀ (a b : Pat ι β), CChild G a p → CChild G b p →
      (¬ CEats G H pol d a → CFirst G H pol d b p) → ∀ v st1 o1 st2,
      cn a st o = some (.ok v st1 o1) → cn b st2 o1 ≠ none := by
    intro a b ha hb hF v st1 o1 st2 h
    have f := fw a ha st o v st1 o1 ho h
    by_cases he : CEats G H pol d a
    · have := he o st v st1 o1 ho (constructs_iff.mpr (hcle _ _ _ _ h))
      exact hlater b hb st2 o1 f.2 (by omega)
    · exact hfirst b (hF he) st2 o1 f.2 (by omega)
  have afterM : ∀ (a b : Pat ι β), MatchPart a p → CChild G b p →
      (¬ EatsIn G pol d a → CFirst G H pol d b p) → ∀ s o1 st2,
      mt a o = some (.ok s o1) → cn b st2 o1 ≠ none := by
    intro a b ha hb hF s o1 st2 h
    have f := (mf a ha o ho).1 s o1 h
    by_cases he : EatsIn G pol d a
    · have := he o s o1 ho (runs_iff.mpr (hmle _ _ _ h))
      exact hlater b hb st2 o1 f.2 (by omega)
    · exact hfirst b (hF he) st2 o1 f.2 (by omega)
  have third : ∀ (a t b : Pat ι β), CChild G a p → MatchPart t p → CChild G b p →
      (¬ CEats G H pol d a → ¬ EatsIn G pol d t → CFirst G H pol d b p) → ∀ v st1 o1 s o2 st2,
      cn a st o = some (.ok v st1 o1) → mt t o1 = some (.ok s o2) →
      cn b st2 o2 ≠ none := by
    intro a t b ha ht hb hF v st1 o1 s o2 st2 h h'
    have f := fw a ha st o v st1 o1 ho h
    have f' := (mf t ht o1 f.2).1 s o2 h'
    by_cases he : CEats G H pol d a
    · have := he o st v st1 o1 ho (constructs_iff.mpr (hcle _ _ _ _ h))
      exact hlater b hb st2 o2 f'.2 (by omega)
    · by_cases he' : EatsIn G pol d t
      · have := he' o1 s o2 f.2 (runs_iff.mpr (hmle _ _ _ h'))
        exact hlater b hb st2 o2 f'.2 (by omega)
      · exact hfirst b (hF he he') st2 o2 f'.2 (by omega)
  cases p
  case empty => rw [conStepL_leaf (hp := by trivial)]; exact inv trivial
  case fail => rw [conStepL_leaf (hp := by trivial)]; exact inv trivial
  case start => rw [conStepL_leaf (hp := by trivial)]; exact inv trivial
  case anchorEnd => rw [conStepL_leaf (hp := by trivial)]; exact inv trivial
  case consume => rw [conStepL_leaf (hp := by trivial)]; exact inv trivial
  case consumeAll => rw [conStepL_leaf (hp := by trivial)]; exact inv trivial
  case lit => rw [conStepL_leaf (hp := by trivial)]; exact inv trivial
  case native => rw [conStepL_leaf (hp := by trivial)]; exact inv trivial
  case once => rw [conStepL_leaf (hp := by trivial)]; exact inv trivial
  case many1 => rw [conStepL_leaf (hp := by trivial)]; exact inv trivial
  case optU => rw [conStepL_leaf (hp := by trivial)]; exact inv trivial
  case many0 => rw [conStepL_leaf (hp := by trivial)]; exact inv trivial
  case between => rw [conStepL_leaf (hp := by trivial)]; exact inv trivial
  case times => rw [conStepL_leaf (hp := by trivial)]; exact inv trivial
  case thenU => rw [conStepL_leaf (hp := by trivial)]; exact inv trivial
  case assert => rw [conStepL_leaf (hp := by trivial)]; exact inv trivial
  case build => rw [conStepL_leaf (hp := by trivial)]; exact inv trivial
  case pat q => rw [conStepL_pat]; exact invokeK_ne (M q rfl id o ho)
  case thn a b =>
    rw [conStepL_thn]
    refine caseC_ne (here a (.inl rfl) st) (fun v st1 o1 h => ?_) (fun _ _ _ _ => by simp)
    exact caseC_ne (next a b (.inl rfl) (.inr rfl) (fun h => .inr ⟨h, rfl⟩) v st1 o1 st1 h)
      (fun _ _ _ _ => by simp) (fun _ _ _ _ => by simp)
  case ifThen a t b =>
    rw [conStepL_ifThen]
    refine caseC_ne (here a (.inl rfl) st) (fun v st1 o1 h => ?_) (fun _ _ _ _ => by simp)
    have f := fw a (.inl rfl) st o v st1 o1 ho h
    refine caseM_ne (M t rfl id o1 f.2) (fun s o2 h' => ?_) (fun _ _ _ => by simp)
    exact caseC_ne (third a t b (.inl rfl) rfl (.inr rfl) (fun h h' => .inr ⟨h, h', rfl⟩) v st1 o1 s o2 st1 h h')
      (fun _ _ _ _ => by simp) (fun _ _ _ _ => by simp)
  case sepOnce a t b =>
    rw [conStepL_sepOnce]
    refine caseC_ne (here a (.inl rfl) st) (fun v st1 o1 h => ?_) (fun _ _ _ _ => by simp)
    have f := fw a (.inl rfl) st o v st1 o1 ho h
    refine caseM_ne (M t rfl id o1 f.2) (fun s o2 h' => ?_) (fun _ _ _ => by simp)
    exact caseC_ne (third a t b (.inl rfl) rfl (.inr rfl) (fun h h' => .inr ⟨h, h', rfl⟩) v st1 o1 s o2 st1 h h')
      (fun _ _ _ _ => by simp) (fun _ _ _ _ => by simp)
  case pre a b =>
    rw [conStepL_pre]
    refine caseM_ne (M a rfl id o ho) (fun s o1 h => ?_) (fun _ _ _ => by simp)
    exact caseC_ne (afterM a b rfl rfl (fun h => ⟨h, rfl⟩) s o1 st h)
      (fun _ _ _ _ => by simp) (fun _ _ _ _ => by simp)
  case suf a b =>
    rw [conStepL_suf]
    refine caseC_ne (here a rfl st) (fun v st1 o1 h => ?_) (fun _ _ _ _ => by simp)
    have f := fw a rfl st o v st1 o1 ho h
    exact caseM_ne (M b rfl id o1 f.2) (fun _ _ _ => by simp) (fun _ _ _ => by simp)
  case enclose a b c =>
    rw [conStepL_enclose]
    refine caseM_ne (M a (.inl rfl) id o ho) (fun s o1 h => ?_) (fun _ _ _ => by simp)
    have f := (mf a (.inl rfl) o ho).1 s o1 h
    refine caseC_ne (afterM a b (.inl rfl) rfl (fun h => ⟨h, rfl⟩) s o1 st h) (fun v st1 o2 h' => ?_)
      (fun _ _ _ _ => by simp)
    have f' := fw b rfl st o1 v st1 o2 f.2 h'
    exact caseM_ne (M c (.inr rfl) id o2 f'.2) (fun _ _ _ => by simp) (fun _ _ _ => by simp)
  case or a b =>
    rw [conStepL_or]
    refine caseC_ne (here a (.inl rfl) st) (fun _ _ _ _ => by simp) (fun _ st1 _ _ => ?_)
    exact caseC_ne (here b (.inr rfl) st1) (fun _ _ _ _ => by simp) (fun _ _ _ _ => by simp)
  case longest a b =>
    rw [conStepL_longest]
    refine caseC_ne (here a (.inl rfl) st) (fun _ st1 _ _ => ?_) (fun _ st1 _ _ => ?_)
    · exact caseC_ne (here b (.inr rfl) st1) (fun _ _ _ _ => by split <;> simp) (fun _ _ _ _ => by simp)
    · exact caseC_ne (here b (.inr rfl) st1) (fun _ _ _ _ => by simp) (fun _ _ _ _ => by simp)
  case opt q =>
    rw [conStepL_opt]
    exact caseC_ne (here q rfl st) (fun _ _ _ _ => by simp) (fun _ _ _ _ => by simp)
  case choice e items =>
    rw [conStepL_choice]
    exact conChoice_ne (fun it hit st => here it.1 ⟨it, hit, rfl⟩ st) st
  case ltm e items =>
    rw [conStepL_ltm]
    exact conLtm_ne (fun it hit st => here it.1 ⟨it, hit, rfl⟩ st) _ _ st o
  case rep q r =>
    rw [conStepL_rep]
    exact rep q _ _ _ _ _ rfl rfl (hl.elim (fun h => .inr (more_false r h)) .inl)
  case rep2 q m n => rw [conStepL_rep2]; exact rep q _ _ _ _ _ rfl rfl (.inr (bnd n))
  case collect q m => rw [conStepL_collect]; exact rep q _ _ _ _ _ rfl rfl (.inl hl)
  case sep q s skip m => rw [conStepL_sep]; exact sep q s _ _ _ _ _ _ rfl rfl rfl id (.inl hl)
  case sep2 q s skip m n => rw [conStepL_sep2]; exact sep q s _ _ _ _ _ _ rfl rfl rfl id (.inr (bnd n))
  case sepCollect q s skip m =>
    rw [conStepL_sepCollect]
    exact conSepCL_ne (lo := o) (len := blen d) (conFinish_ne _ _ _ _)
      (fun st o1 h1 h2 => hfirst q rfl st o1 h2 (by omega))
      (fun st o1 v st' o' _ h2 h3 => fw q rfl st o1 v st' o' h2 h3)
      (fun o1 _ h2 => M s rfl id o1 h2) (fun o1 _ h2 => mf s rfl o1 h2)
      (pair q s rfl rfl hl) _ _ _ _ _ (Nat.le_refl _) ho
  case branch t a b =>
    rw [conStepL_branch]
    refine caseT_ne (fun v => ?_) (fun _ => by simp)
    refine caseC_ne (here (if v then a else b) ?_ st) (fun _ _ _ _ => by simp) (fun _ _ _ _ => by simp)
    cases v
    · exact .inr rfl
    · exact .inl rfl
  case map q f =>
    rw [conStepL_map]
    exact caseC_ne (here q rfl st) (fun _ _ _ _ => caseT_ne (fun _ => by simp) (fun _ => by simp))
      (fun _ _ _ _ => by simp)
  case dthen q f =>
    rw [conStepL_dthen]
    refine caseC_ne (here q (.inl rfl) st) (fun v st1 o1 h => ?_) (fun _ _ _ _ => by simp)
    have h1 := fw q (.inl rfl) st o v st1 o1 ho h
    have hd := hfw.self.2 o1 v h1.2
    refine caseM_ne (by simp) (fun p' o2 h' => ?_) (fun _ _ _ => by simp)
    have hf : f d o1 v = .ok p' o2 := by simpa using h'
    rw [hf] at hd
    dsimp only at hd
    refine caseC_ne ?_ (fun _ _ _ _ => by simp) (fun _ _ _ _ => by simp)
    by_cases he : CEats G H pol d q
    · have := he o st v st1 o1 ho (constructs_iff.mpr (hcle _ _ _ _ h))
      exact hlater p' (.inr ⟨d, o1, v, o2, hf⟩) st1 o2 hd.2 (by omega)
    · exact hfirst p' (.inr ⟨he, o1, v, o2, hf⟩) st1 o2 hd.2 (by omega)
  case cell i =>
    rw [conStepL_cell]
    cases hG : G i with
    | none => simp
    | some q => exact here q hG st

/-- One round of the induction (compare `parseL_returns`). -/
theorem conL_returns {p : Pat ι β} {R : Nat}
    (hfw : CAll G (CForward G pol d) p) (hm : PartsReturn G pol d p) (hl : CLoopsEat G H pol d p)
    (hfirst : ∀ q, CFirst G H pol d q p → ∀ st o, o ≤ blen d → blen d - o ≤ R →
      conL G H pol d q st o ≠ none)
    (hlater : ∀ q, CChild G q p → ∀ st o, o ≤ blen d → blen d - o < R →
      conL G H pol d q st o ≠ none)
    (st : σ) (o : Nat) (ho : o ≤ blen d) (hR : blen d - o ≤ R) :
    conL G H pol d p st o ≠ none := by
  have M : ∀ m, MatchPart m p → ∀ o, o ≤ blen d → matL G pol d m o ≠ none := by
    intro m hm' o ho
    obtain ⟨r, hr⟩ := hm m hm' o ho
    rw [runs_iff] at hr; rw [hr]; simp
  rw [conL_eq]
  refine conStepL_returns (fun _ _ => Le.refl _) (fun _ _ _ => Le.refl _) hfw
    (fun m hm' _ => M m hm') (fun h => M p ?_ o ho) hl hfirst hlater st o ho hR
  cases p <;> first | exact h.elim | exact rfl

theorem CFirst.child {q p : Pat ι β} (h : CFirst G H pol d q p) : CChild G q p := by
  cases p <;> simp_all only [CFirst, CChild] <;> grind

/-- Constructing returns for every pattern reachable from `p`. -/
theorem conL_total (R : Nat) (p : Pat ι β)
    (h : CAll G (fun q => CForward G pol d q ∧ PartsReturn G pol d q ∧ CLoopsEat G H pol d q ∧
      Acc (CFirst G H pol d) q) p) :
    ∀ st o, o ≤ blen d → blen d - o ≤ R → conL G H pol d p st o ≠ none := by
  induction R using Nat.strongRecOn generalizing p with
  | _ R ihR =>
    have hacc := h.self.2.2.2
    induction hacc with
    | intro p _ ih =>
      refine conL_returns (h.mono fun _ h => h.1) h.self.2.1 h.self.2.2.1
        (fun q hq => ih q hq (h.child hq.child)) (fun q hq st o ho hR => ?_)
      exact ihR (blen d - o) hR q (h.child hq) st o ho (Nat.le_refl _)

end Neure
