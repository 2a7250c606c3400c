import Verif.LinearCost
import Verif.WorkBound
import Verif.PegSkip
/-!
# Where one item of lookahead decides: patterns make the calls of their plans
-/

namespace Neure

set_option linter.unusedSectionVars false
set_option linter.unusedSimpArgs false

open Plan

variable {ι β σ α : Type} [Item ι] {G : Rules ι β} {H : Handler ι β σ} {pol : Option (Pat ι β)} {d : List ι}
  {b : ι → Bool} {P : Bool → Nat → Plan ι} {w : Bool}
  {S : Pat ι β → Nat → Bool → (ι → Bool) → Prop}

/-- What `m`, started between `pre` and `x`, does is what `e` may do on `x`, with `k` calls to spare. -/
def After (b : ι → Bool) (P : Bool → Nat → Plan ι) (e : Plan ι) (k : Nat) (pre x : List ι) (n : Nat) :
    Except Error α → σ × Nat → Nat → Prop
  | .ok _, s', o' => ∃ t y c, x = t ++ y ∧ o' = blen (pre ++ t) ∧ Takes b P e x (.ok y) c ∧ s'.2 + k ≤ n + c
  | .error _, s', o' => ∃ t z r c, x = t ++ z ∧ o' = blen (pre ++ t) ∧ Takes b P e x r c ∧ r.Left b x z ∧ s'.2 + k ≤ n + c

def Does (b : ι → Bool) (P : Bool → Nat → Plan ι) (d : List ι) (m : M (σ × Nat) (Except Error α)) (e : Plan ι) (k : Nat) : Prop :=
  ∀ pre x s, d = pre ++ x → WP m (After b P e k pre x s.2) s (blen pre)

theorem Does.use {m : M (σ × Nat) (Except Error α)} {e : Plan ι} (h : Does b P d m e 0)
    {Q : Except Error α → σ × Nat → Nat → Prop} {s : σ × Nat} {pre x : List ι} (hd : d = pre ++ x)
    (ok : ∀ a s' t y c, x = t ++ y → Takes b P e x (.ok y) c → s'.2 ≤ s.2 + c → Q (.ok a) s' (blen (pre ++ t)))
    (no : ∀ er s' t z r c, x = t ++ z → Takes b P e x r c → r.Left b x z → s'.2 ≤ s.2 + c → Q (.error er) s' (blen (pre ++ t))) :
    WP m Q s (blen pre) := by
  refine (h pre x s hd).mono fun r s' o' hr => ?_
  cases r with
  | ok a => obtain ⟨t, y, c, h1, rfl, h3, h4⟩ := hr; exact ok a s' t y c h1 h3 h4
  | error er => obtain ⟨t, z, r, c, h1, rfl, h3, h4, h5⟩ := hr; exact no er s' t z r c h1 h3 h4 h5

theorem left_fails {r : End ι} {x z : List ι} (h : r.Left b x z) : r.fails := by cases r <;> first | exact h | trivial

theorem After.ok {e : Plan ι} {k n : Nat} {pre x : List ι} {a : α} {s' : σ × Nat} {t y : List ι} {c : Nat}
    (h1 : x = t ++ y) (h3 : Takes b P e x (.ok y) c) (h4 : s'.2 + k ≤ n + c) :
    After b P e k pre x n (.ok a) s' (blen (pre ++ t)) := ⟨t, y, c, h1, rfl, h3, h4⟩

/-- The context is where it was. -/
theorem After.back {e : Plan ι} {k n : Nat} {pre x : List ι} {er : Error} {s' : σ × Nat} {c : Nat}
    (h3 : Takes b P e x .no c) (h4 : s'.2 + k ≤ n + c) :
    After (α := α) b P e k pre x n (.error er) s' (blen pre) := ⟨[], x, .no, c, rfl, by simp, h3, .inl rfl, h4⟩

theorem does_call {m : M (σ × Nat) (Except Error α)} {e : Plan ι} (h : Does b P d m e 0) : Does b P d m (.call e) 1 := by
  intro pre x s hd
  refine h.use hd (fun a s' t y c h1 h2 h3 => .ok h1 (.call h2) (by omega)) fun er s' t z r c h1 h2 h3 h4 => ?_
  exact ⟨t, z, r, c + 1, h1, rfl, .call h2, h3, by omega⟩

theorem does_may {m : M (σ × Nat) (Except Error α)} {e : Plan ι} {k : Nat} (h : Does b P d m e k) : Does b P d m (.may e) k := by
  intro pre x s hd
  refine (h pre x s hd).mono fun r s' o' hr => ?_
  cases r with
  | ok a => obtain ⟨t, y, c, h1, h2, h3, h4⟩ := hr; exact ⟨t, y, c, h1, h2, .may h3, h4⟩
  | error er => obtain ⟨t, z, r, c, h1, h2, h3, h4, h5⟩ := hr; exact ⟨t, z, r, c, h1, h2, .may h3, h4, h5⟩

theorem does_tick {m : M (σ × Nat) (Except Error α)} {e : Plan ι} (h : Does b P d m e 1) :
    Does b P d (tick >>= fun _ => m) e 0 := by
  intro pre x s hd r s' o' hr
  have := h pre x (s.1, s.2 + 1) hd r s' o' hr
  cases r with
  | ok a => obtain ⟨t, y, c, h1, h2, h3, h4⟩ := this; exact ⟨t, y, c, h1, h2, h3, by simp only at h4; omega⟩
  | error er => obtain ⟨t, z, r, c, h1, h2, h3, h4, h5⟩ := this; exact ⟨t, z, r, c, h1, h2, h3, h4, by simp only at h5; omega⟩

/-! ## Primitive patterns -/

theorem workParse_run {n : Nat} {p : Pat ι β} {s s' : σ × Nat} {o o' : Nat} {r : Except Error Span}
    (h : workParse G n pol d p s o = some (.done r s' o')) :
    match r with | .ok a => parse G n pol d p o = some (.ok a o') | .error e => parse G n pol d p o = some (.err e o') := by
  have := work_erase (σ := σ) G n pol d p s s.1 o rfl
  rw [h] at this
  obtain ⟨t, ht, e⟩ := this
  rw [imp_parse] at ht
  have := (liftR_inv ht).2
  cases r <;> exact this

theorem leafOk_of {R : Nat → Peg ι} {p : Pat ι β} {e : Peg ι} (hp : Primitive p) (ha : AsPeg p e) : LeafOk G R p e := by
  cases ha with
  | empty => exact pegLeaf_empty
  | fail => exact pegLeaf_fail
  | anchorEnd => exact pegLeaf_anchorEnd
  | consumeAll => exact pegLeaf_consumeAll
  | lit l => exact pegLeaf_lit l
  | once u => exact pegLeaf_once u
  | many0 u => exact pegLeaf_many0 u
  | many1 u => exact pegLeaf_many1 u
  | optU u => exact pegLeaf_optU u
  | between u m n hu hmn => exact pegLeaf_between u m n hu hmn
  | times u r m n hu hc => exact pegLeaf_times u r m n hu hc
  | thenU u v hu hv => exact pegLeaf_thenU u v hu hv
  | _ => exact absurd hp id

theorem leaf_calls {p : Pat ι β} {e : Peg ι} (hp : Primitive p) (ha : AsPeg p e) (n : Nat) (s : σ × Nat) (o : Nat) :
    WP (workParse G n pol d p) (fun _ s' _ => s'.2 ≤ s.2 + 1) s o := by
  cases n with
  | zero => rintro _ _ _ ⟨⟩
  | succ n =>
    intro r s' o' hr
    have key : WP (impStep G n (workMat G n pol) (workParse (σ := σ) G n pol d) d p)
        (fun _ s' _ => s'.2 ≤ s.2 + 1) (s.1, s.2 + 1) o := by
      have plain : Plain p → WP (impStep G n (workMat G n pol) (workParse (σ := σ) G n pol d) d p)
          (fun _ s' _ => s'.2 ≤ s.2 + 1) (s.1, s.2 + 1) o := fun h =>
        (spend_plain G n _ _ h _ o).mono fun _ _ _ h => by simp only at h; omega
      have unit : condOf p = some .empty → WP (impStep G n (workMat G n pol) (workParse (σ := σ) G n pol d) d p)
          (fun _ s' _ => s'.2 ≤ s.2 + 1) (s.1, s.2 + 1) o := fun h =>
        (spend_unit (w := 0) G n _ h (Nat.le_refl _) (fun _ q hq => absurd hq id) _ o).mono
          fun _ _ _ h => by simpa using h
      cases ha with
      | empty | fail | anchorEnd | consumeAll | lit => exact plain trivial
      | once | many0 | many1 | optU | between | times | thenU => exact unit rfl
      | _ => exact absurd hp id
    exact key r s' o' hr

theorem does_leaf {p : Pat ι β} {e : Peg ι} (hp : Primitive p) (ha : AsPeg p e) (n : Nat) :
    Does (σ := σ) b P d (workParse G n pol d p) (.leaf e) 0 := by
  intro pre x s hd r s' o' hr
  have hc := leaf_calls hp ha n s _ r s' o' hr
  have hrun := workParse_run hr
  have conv : ∀ res, parse G n pol d p (blen pre) = some res → ∃ n', parse G n' none (pre ++ x) p (blen pre) = some res := by
    intro res h
    refine parses_iff.mpr ?_
    rw [primitive_policy_free hp none pol, ← hd]; exact parses_iff.mp ⟨n, h⟩
  have hl := leafOk_of (G := G) (R := fun _ => .cls fun _ => false) hp ha
  cases r with
  | ok a =>
    obtain ⟨n', h⟩ := conv _ hrun
    obtain ⟨r, hf, hs⟩ := hl.sound h
    cases r with
    | some y => obtain ⟨t, hx, hr⟩ := hs; cases hr; exact ⟨t, y, 1, hx, by simp [blen_append], .leaf_ok hf, hc⟩
    | none => obtain ⟨er, hr⟩ := hs; cases hr
  | error er =>
    obtain ⟨n', h⟩ := conv _ hrun
    obtain ⟨r, hf, hs⟩ := hl.sound h
    cases r with
    | some y => obtain ⟨t, hx, hr⟩ := hs; cases hr
    | none => obtain ⟨er, hr⟩ := hs; cases hr; exact .back (.leaf_no hf) hc

theorem does_mat {p : Pat ι β} {e : Plan ι} {n : Nat} (hpol : SkipsBlanks w pol b)
    (h : Does (σ := σ) b P d (workParse G n pol d p) e 0) : Does (σ := σ) b P d (workMat G n pol d p) (e.via w) 0 := by
  cases w with
  | false => obtain ⟨rfl, rfl⟩ := hpol; exact h
  | true =>
    obtain ⟨u, rfl, rfl⟩ := hpol
    intro pre x s hd
    unfold workMat impMat Plan.via
    refine WP.bind_ ((does_leaf (P := P) (b := u.isMatch) (G := G) (pol := none) (p := .many0 u .empty) trivial (.many0 u) n).use hd ?_ ?_)
    · intro a s1 t y c hx ht hc
      cases ht with
      | leaf_ok hf =>
        have : y = x.dropWhile u.isMatch := by
          have := hf.unique (ford_star_cls u.isMatch x); simpa using this
        subst this
        refine h.use (by rw [List.append_assoc, ← hx]; exact hd) ?_ ?_
        · intro a s' t' y' c' hx' ht' hc'
          rw [List.append_assoc]
          exact .ok (by rw [List.append_assoc, ← hx', ← hx]) (.skip ht') (by omega)
        · intro er s' t' z r c' hx' ht' hz hc'
          rw [List.append_assoc]
          refine ⟨t ++ t', z, r, c' + 1, by rw [List.append_assoc, ← hx', ← hx], rfl, .skip ht', ?_, by omega⟩
          cases r with
          | ok => exact hz
          | no =>
            rcases hz with rfl | rfl
            · exact .inr rfl
            · right
              generalize u.isMatch = f
              clear hx ht' hx' hd hf
              induction x with
              | nil => rfl
              | cons a x ih => cases ha : f a <;> simp [List.dropWhile_cons, ha, ih]
          | late => exact hz
    · intro er s1 t y r c hx ht hz hc
      cases ht with
      | leaf_ok hf => cases hz
      | leaf_no hf => have := hf.unique (ford_star_cls u.isMatch x); cases this

/-! ## Bodies with a guard -/

section
variable {γ : Type} {Q : Except Error γ → Guard → σ × Nat → Nat → Prop} {g : Guard} {s : σ × Nat} {pre x : List ι}
  {m : M (σ × Nat) (Except Error α)} {e : Plan ι}

/-- The two ways on after `m`. -/
def Ways (b : ι → Bool) (P : Bool → Nat → Plan ι) (d : List ι) (e : Plan ι) (pre x : List ι) (n : Nat)
    (ok : α → σ × Nat → Nat → Prop) (no : Error → σ × Nat → Nat → Prop) : Prop :=
  (∀ a s' t y c, x = t ++ y → d = pre ++ t ++ y → Takes b P e x (.ok y) c → s'.2 ≤ n + c → ok a s' (blen (pre ++ t))) ∧
  ∀ er s' t z r c, x = t ++ z → Takes b P e x r c → r.Left b x z → s'.2 ≤ n + c → no er s' (blen (pre ++ t))

theorem Does.ways (h : Does b P d m e 0) (hd : d = pre ++ x) {ok : α → σ × Nat → Nat → Prop} {no : Error → σ × Nat → Nat → Prop}
    (hw : Ways b P d e pre x s.2 ok no) :
    WP m (fun r s' o' => match r with | .ok a => ok a s' o' | .error er => no er s' o') s (blen pre) :=
  h.use hd (fun a s' t y c h1 h2 h3 => hw.1 a s' t y c h1 (by rw [List.append_assoc, ← h1]; exact hd) h2 h3)
    fun er s' t z r c h1 h2 h3 h4 => hw.2 er s' t z r c h1 h2 h3 h4

/-- `ctx.try_mat(..)?`. -/
theorem must {f : α → GM (σ × Nat) γ} (h : Does b P d m e 0) (hd : d = pre ++ x)
    (hw : Ways b P d e pre x s.2 (fun a s' o' => GWP (f a) Q g s' o')
      fun er s' o' => Q (.error er) { g with reset := true } s' o') :
    GWP (GM.tryMat m >>= fun r => GM.try_ r >>= f) Q g s (blen pre) := by
  refine GWP.bind_ (GWP.tryMat_ ((h.ways hd hw).mono fun r s' o' hr => ⟨fun a ha => ?_, fun e he => by cases he⟩))
  cases ha
  refine GWP.bind_ (GWP.try__ ⟨fun a ha => ?_, fun e he => ?_⟩)
  · subst ha; exact hr
  · subst he; exact hr

theorem mustLast {m : M (σ × Nat) (Except Error γ)} (h : Does b P d m e 0) (hd : d = pre ++ x)
    (hw : Ways b P d e pre x s.2 (fun a s' o' => Q (.ok a) g s' o')
      fun er s' o' => Q (.error er) { g with reset := true } s' o') :
    GWP (GM.tryMat m >>= fun r => GM.try_ r) Q g s (blen pre) := by
  refine GWP.bind_ (GWP.tryMat_ ((h.ways hd hw).mono fun r s' o' hr => ⟨fun a ha => ?_, fun e he => by cases he⟩))
  cases ha
  refine GWP.try__ ?_
  cases r <;> exact hr

/-- `let r = p.construct(..); ctx.process_ret(r)?`. -/
theorem mustRet {f : α → GM (σ × Nat) γ} (h : Does b P d m e 0) (hd : d = pre ++ x)
    (hw : Ways b P d e pre x s.2 (fun a s' o' => GWP (f a) Q g s' o')
      fun er s' o' => Q (.error er) { g with reset := true } s' o') :
    GWP (GM.call m >>= fun r => GM.processRet r >>= fun r => GM.try_ r >>= f) Q g s (blen pre) := by
  refine GWP.bind_ (GWP.call_ ((h.ways hd hw).mono fun r s' o' hr => ⟨fun a ha => ?_, fun e he => by cases he⟩))
  cases ha
  refine GWP.bind_ (GWP.processRet_ ⟨fun a ha => ?_, fun e he => by cases he⟩)
  cases ha
  refine GWP.bind_ (GWP.try__ ⟨fun a ha => ?_, fun e he => ?_⟩)
  · subst ha; exact hr
  · subst he; exact hr

theorem mustRetLast {m : M (σ × Nat) (Except Error γ)} (h : Does b P d m e 0) (hd : d = pre ++ x)
    (hw : Ways b P d e pre x s.2 (fun a s' o' => Q (.ok a) g s' o')
      fun er s' o' => Q (.error er) { g with reset := true } s' o') :
    GWP (GM.call m >>= fun r => GM.processRet r >>= fun r => GM.try_ r) Q g s (blen pre) := by
  refine GWP.bind_ (GWP.call_ ((h.ways hd hw).mono fun r s' o' hr => ⟨fun a ha => ?_, fun e he => by cases he⟩))
  cases ha
  refine GWP.bind_ (GWP.processRet_ ⟨fun a ha => ?_, fun e he => by cases he⟩)
  cases ha
  refine GWP.try__ ?_
  cases r <;> exact hr

theorem addLast {a c : Span} {Q : Except Error Span → Guard → σ × Nat → Nat → Prop} {o : Nat}
    (h : ∀ r, Q (.ok r) g s o) : GWP (GM.call (addAssign a c)) Q g s o :=
  GWP.call_ (WP.addAssign_ h)

theorem addThen {a c : Span} {f : Span → GM (σ × Nat) γ} {o : Nat}
    (h : ∀ r, GWP (f r) Q g s o) : GWP (GM.call (addAssign a c) >>= f) Q g s o :=
  GWP.bind_ (GWP.call_ (WP.addAssign_ fun r => ⟨fun _ h' => by cases h'; exact h r, fun _ h' => by cases h'⟩))

end

section
variable {mt : Pat ι β → M (σ × Nat) (Except Error Span)} {cn : Pat ι β → M (σ × Nat) (Except Error (Val β))}
  {p q r : Pat ι β} {ea eb ec : Plan ι}

theorem does_thn (ha : Does b P d (mt p) ea 0) (hb : Does b P d (mt q) eb 0) :
    Does b P d (Imp.thn mt p q) (.seq ea eb) 0 := by
  intro pre x s hd
  dsimp +zetaHave only [Imp.thn]
  refine WP.guarded_ (must ha hd ⟨fun a s1 t y c hx hd1 ht hc => ?_, fun er s1 t z r c hx ht hz hc => ?_⟩)
  · refine must hb hd1 ⟨fun a s2 t2 y2 c2 hx2 hd2 ht2 hc2 => ?_, fun er s2 t2 z2 r c2 hx2 ht2 hz2 hc2 => ?_⟩
    · refine addLast fun _ => ?_
      rw [List.append_assoc]
      exact .ok (by rw [hx, hx2, List.append_assoc]) (.seq_ok ht ht2) (by omega)
    · exact .back (.seq_no2 ht ht2 (left_fails hz2)) (by omega)
  · exact .back (.seq_no ht (left_fails hz)) (by omega)

theorem does_enclose (ha : Does b P d (mt p) ea 0) (hb : Does b P d (mt q) eb 0) (hc : Does b P d (mt r) ec 0) :
    Does b P d (Imp.enclose mt p q r) (.seq ea (.seq eb ec)) 0 := by
  intro pre x s hd
  dsimp +zetaHave only [Imp.enclose]
  refine WP.guarded_ (must ha hd ⟨fun a s1 t y c hx hd1 ht hc1 => ?_, fun er s1 t z r c hx ht hz hc => ?_⟩)
  · refine must hb hd1 ⟨fun a s2 t2 y2 c2 hx2 hd2 ht2 hc2 => ?_, fun er s2 t2 z2 r c2 hx2 ht2 hz2 hc2 => ?_⟩
    · refine addThen fun _ => must hc hd2 ⟨fun a s3 t3 y3 c3 hx3 hd3 ht3 hc3 => ?_, fun er s3 t3 z3 r c3 hx3 ht3 hz3 hc3 => ?_⟩
      · refine addLast fun _ => ?_
        rw [List.append_assoc, List.append_assoc]
        exact .ok (by simp [hx, hx2, hx3]) (.seq_ok ht (.seq_ok ht2 ht3)) (by omega)
      · exact .back (.seq_no2 ht (.seq_no2 ht2 ht3 (left_fails hz3)) trivial) (by omega)
    · exact .back (.seq_no2 ht (.seq_no ht2 (left_fails hz2)) trivial) (by omega)
  · exact .back (.seq_no ht (left_fails hz)) (by omega)

theorem does_sepOnce (ha : Does b P d (mt p) ea 0) (hb : Does b P d (mt q) eb 0) (hc : Does b P d (mt r) ec 0) :
    Does b P d (Imp.sepOnce mt p q r) (.seq ea (.seq eb ec)) 0 := by
  intro pre x s hd
  dsimp +zetaHave only [Imp.sepOnce]
  refine WP.guarded_ (GWP.bind_ (GWP.beg_ ⟨fun _ h => ?_, fun _ h => by cases h⟩))
  cases h
  refine must ha hd ⟨fun a s1 t y c hx hd1 ht hc1 => ?_, fun er s1 t z r c hx ht hz hc => ?_⟩
  · refine addThen fun _ => must hb hd1 ⟨fun a s2 t2 y2 c2 hx2 hd2 ht2 hc2 => ?_, fun er s2 t2 z2 r c2 hx2 ht2 hz2 hc2 => ?_⟩
    · refine addThen fun _ => must hc hd2 ⟨fun a s3 t3 y3 c3 hx3 hd3 ht3 hc3 => ?_, fun er s3 t3 z3 r c3 hx3 ht3 hz3 hc3 => ?_⟩
      · refine addLast fun _ => ?_
        rw [List.append_assoc, List.append_assoc]
        exact .ok (by simp [hx, hx2, hx3]) (.seq_ok ht (.seq_ok ht2 ht3)) (by omega)
      · exact .back (.seq_no2 ht (.seq_no2 ht2 ht3 (left_fails hz3)) trivial) (by omega)
    · exact .back (.seq_no2 ht (.seq_no ht2 (left_fails hz2)) trivial) (by omega)
  · exact .back (.seq_no ht (left_fails hz)) (by omega)

/-- The test of `if_then`, in a guard of its own. -/
theorem does_probe {m : M (σ × Nat) (Except Error Span)} {e : Plan ι} (h : Does b P d m e 0) {pre x : List ι} (hd : d = pre ++ x)
    {s : σ × Nat} {Q : Except Error Span → σ × Nat → Nat → Prop}
    (ok : ∀ a s' t y c, x = t ++ y → d = pre ++ t ++ y → Takes b P e x (.ok y) c → s'.2 ≤ s.2 + c → Q (.ok a) s' (blen (pre ++ t)))
    (no : ∀ er s' r c, Takes b P e x r c → r.fails → s'.2 ≤ s.2 + c → Q (.error er) s' (blen pre)) :
    WP (guarded do GM.try_ (← GM.tryMat m)) Q s (blen pre) := by
  refine WP.guarded_ (mustLast h hd ⟨fun a s1 t y c hx hd1 ht hc => ?_, fun er s1 t z r c hx ht hz hc => ?_⟩)
  · exact ok a s1 t y c hx hd1 ht hc
  · exact no er s1 r c ht (left_fails hz) hc

theorem does_ifThen (ha : Does b P d (mt p) ea 0) (hb : Does b P d (mt q) eb 0) (hc : Does b P d (mt r) ec 0) :
    Does b P d (Imp.ifThen mt p q r) (.seq ea (.cond eb ec)) 0 := by
  intro pre x s hd
  dsimp +zetaHave only [Imp.ifThen]
  refine WP.guarded_ (must ha hd ⟨fun a s1 t y c hx hd1 ht hc1 => ?_, fun er s1 t z r c hx ht hz hc => ?_⟩)
  · refine GWP.bind_ (GWP.call_ (does_probe hb hd1 (fun a s2 t2 y2 c2 hx2 hd2 ht2 hc2 => ⟨fun _ h => ?_, fun _ h => by cases h⟩)
      fun er s2 r c2 ht2 hr hc2 => ⟨fun _ h => ?_, fun _ h => by cases h⟩))
    · cases h
      refine addThen fun _ => must hc hd2 ⟨fun a s3 t3 y3 c3 hx3 hd3 ht3 hc3 => ?_, fun er s3 t3 z3 r c3 hx3 ht3 hz3 hc3 => ?_⟩
      · refine addLast fun _ => ?_
        rw [List.append_assoc, List.append_assoc]
        exact .ok (by simp [hx, hx2, hx3]) (.seq_ok ht (.cond_ok ht2 ht3)) (by omega)
      · exact .back (.seq_no2 ht (.cond_no ht2 ht3 (left_fails hz3)) trivial) (by omega)
    · cases h
      refine GWP.pure_ ?_
      exact .ok hx (.seq_ok ht (.cond_not ht2 hr)) (by omega)
  · exact .back (.seq_no ht (left_fails hz)) (by omega)

theorem does_or (ha : Does b P d (mt p) ea 0) (hb : Does b P d (mt q) eb 0) :
    Does b P d (Imp.or mt p q) (.alt ea eb) 0 := by
  intro pre x s hd
  dsimp +zetaHave only [Imp.or]
  refine WP.bind_ (WP.offset_ (WP.bind_ (ha.use hd (fun a s1 t y c hx ht hc => ?_) fun er s1 t z r c hx ht hz hc => ?_)))
  · refine WP.bind_ (WP.pure_ (WP.inspectErr_ (fun _ h => ?_) fun _ h => by cases h))
    exact .ok hx (.alt_1 ht) (by omega)
  · refine WP.bind_ (WP.setOffset_ (WP.bind_ (hb.use hd (fun a s2 t2 y2 c2 hx2 ht2 hc2 => ?_) fun er s2 t2 z2 r2 c2 hx2 ht2 hz2 hc2 => ?_)))
    · refine WP.inspectErr_ (fun _ h => ?_) fun _ h => by cases h
      exact .ok hx2 (.alt_2 ht (left_fails hz) ht2) (by omega)
    · refine WP.inspectErr_ (fun _ h => by cases h) fun _ h => ?_
      exact .back (.alt_no ht (left_fails hz) ht2 (left_fails hz2)) (by omega)

theorem does_orC (ha : Does b P d (cn p) ea 0) (hb : Does b P d (cn q) eb 0) :
    Does b P d (Imp.orC cn p q) (.alt ea eb) 0 := by
  intro pre x s hd
  dsimp +zetaHave only [Imp.orC]
  refine WP.bind_ (WP.offset_ (WP.bind_ (ha.use hd (fun a s1 t y c hx ht hc => ?_) fun er s1 t z r c hx ht hz hc => ?_)))
  · refine WP.bind_ (WP.pure_ (WP.inspectErr_ (fun _ h => ?_) fun _ h => by cases h))
    exact .ok hx (.alt_1 ht) (by omega)
  · refine WP.bind_ (WP.setOffset_ (WP.bind_ (hb.use hd (fun a s2 t2 y2 c2 hx2 ht2 hc2 => ?_) fun er s2 t2 z2 r2 c2 hx2 ht2 hz2 hc2 => ?_)))
    · refine WP.inspectErr_ (fun _ h => ?_) fun _ h => by cases h
      exact .ok hx2 (.alt_2 ht (left_fails hz) ht2) (by omega)
    · refine WP.inspectErr_ (fun _ h => by cases h) fun _ h => ?_
      exact .back (.alt_no ht (left_fails hz) ht2 (left_fails hz2)) (by omega)

theorem does_opt (ha : Does b P d (mt p) ea 0) : Does b P d (Imp.opt mt p) (.alt ea .eps) 0 := by
  intro pre x s hd
  dsimp +zetaHave only [Imp.opt]
  refine WP.bind_ (WP.offset_ (WP.bind_ (ha.use hd (fun a s1 t y c hx ht hc => ?_) fun er s1 t z r c hx ht hz hc => ?_)))
  · refine WP.bind_ (WP.inspectErr_ (fun _ h => WP.pure_ ?_) fun _ h => by cases h)
    exact .ok hx (.alt_1 ht) (by omega)
  · refine WP.bind_ (WP.inspectErr_ (fun _ h => by cases h) fun _ h => WP.pure_ ?_)
    exact ⟨[], x, c + 0, rfl, by simp, .alt_2 ht (left_fails hz) .eps, by omega⟩

theorem does_optC (ha : Does b P d (cn p) ea 0) : Does b P d (Imp.optC cn p) (.alt ea .eps) 0 := by
  intro pre x s hd
  dsimp +zetaHave only [Imp.optC]
  refine WP.bind_ (WP.offset_ (WP.bind_ (ha.use hd (fun a s1 t y c hx ht hc => ?_) fun er s1 t z r c hx ht hz hc => ?_)))
  · refine WP.bind_ (WP.inspectErr_ (fun _ h => WP.pure_ ?_) fun _ h => by cases h)
    exact .ok hx (.alt_1 ht) (by omega)
  · refine WP.bind_ (WP.inspectErr_ (fun _ h => by cases h) fun _ h => WP.pure_ ?_)
    exact ⟨[], x, c + 0, rfl, by simp, .alt_2 ht (left_fails hz) .eps, by omega⟩

/-- What trying alternatives does. -/
def Tried (b : ι → Bool) (P : Bool → Nat → Plan ι) (e : Plan ι) (pre x : List ι) (n : Nat) :
    Except Error α → σ × Nat → Nat → Prop
  | .ok _, s', o' => ∃ t y c, x = t ++ y ∧ o' = blen (pre ++ t) ∧ Takes b P e x (.ok y) c ∧ s'.2 + 1 ≤ n + c
  | .error _, s', o' => o' = blen pre ∧ ∃ r c, Takes b P e x r c ∧ r.fails ∧ s'.2 + 1 ≤ n + c

/-- The loop over the alternatives. -/
def tryAll (f : Pat ι β → M (σ × Nat) (Except Error α)) (g : Pat ι β × Option (Val β) → α → α) (off : Nat)
    (items : List (Pat ι β × Option (Val β))) (ret : Except Error α) : M (σ × Nat) (Except Error α) :=
  forIn_ (fun item ret => do
    let r ← inspectErr (← f item.1) off
    match r with
    | .ok v => return (.ok (g item v), false)
    | .error _ => return (ret, true)) items ret

theorem tried_nil {f : Pat ι β → M (σ × Nat) (Except Error α)} {g : Pat ι β × Option (Val β) → α → α} {er : Error}
    (pre x : List ι) (s : σ × Nat) :
    WP (tryAll f g (blen pre) [] (.error er)) (Tried b P .fail pre x s.2) s (blen pre) :=
  WP.pure_ ⟨rfl, .no, 1, .fail, trivial, by omega⟩

theorem tried_cons {f : Pat ι β → M (σ × Nat) (Except Error α)} {g : Pat ι β × Option (Val β) → α → α}
    {items : List (Pat ι β × Option (Val β))} {it : Pat ι β × Option (Val β)} {ret : Except Error α}
    {pre x : List ι} (hd : d = pre ++ x) (ha : Does b P d (f it.1) ea 0)
    (hb : ∀ s, WP (tryAll f g (blen pre) items ret) (Tried b P eb pre x s.2) s (blen pre)) (s : σ × Nat) :
    WP (tryAll f g (blen pre) (it :: items) ret) (Tried b P (.call (.alt ea eb)) pre x s.2) s (blen pre) := by
  unfold tryAll forIn_
  refine WP.bind_ (WP.bind_ (ha.use hd (fun a s1 t y c hx ht hc => ?_) fun er s1 t z r c hx ht hz hc => ?_))
  · refine WP.bind_ (WP.inspectErr_ (fun _ h => WP.pure_ (WP.pure_ ?_)) fun _ h => by cases h)
    exact ⟨t, y, c + 1, hx, rfl, .call (.alt_1 ht), by omega⟩
  · refine WP.bind_ (WP.inspectErr_ (fun _ h => by cases h) fun _ h => WP.pure_ ((hb s1).mono fun a s2 o2 hr => ?_))
    cases a with
    | ok a =>
      obtain ⟨t2, y2, c2, h1, h2, h3, h4⟩ := hr
      exact ⟨t2, y2, c + c2 + 1, h1, h2, .call (.alt_2 ht (left_fails hz) h3), by omega⟩
    | error er =>
      obtain ⟨h1, r2, c2, h2, h3, h4⟩ := hr
      exact ⟨h1, .no, c + c2 + 1, .call (.alt_no ht (left_fails hz) h2 h3), trivial, by omega⟩

theorem does_tried {m : M (σ × Nat) (Except Error α)} {e : Plan ι}
    (h : ∀ pre x s, d = pre ++ x → WP m (Tried b P e pre x s.2) s (blen pre)) (hn : ∀ x y c, ¬ Takes b P e x (.late y) c) :
    Does b P d m e 1 := by
  intro pre x s hd
  refine (h pre x s hd).mono fun a s' o' hr => ?_
  cases a with
  | ok a => exact hr
  | error er =>
    obtain ⟨rfl, r, c, h1, h2, h3⟩ := hr
    cases r with
    | ok => exact h2.elim
    | no => exact .back h1 h3
    | late => exact absurd h1 (hn _ _ _)

/-! ## Loops -/

theorem does_loop {S : Type} {body : S → M (σ × Nat) (S × Bool)} (cnt : S → Nat) {more ok : Nat → Bool} {m : Nat} {hi : Option Nat}
    (hl : LoopIs more ok m hi) {e : Plan ι}
    (hbody : ∀ t pre x s, d = pre ++ x → WP (body t) (fun v s' o' =>
      (more (cnt t) = false ∧ v.2 = false ∧ cnt v.1 = cnt t ∧ o' = blen pre ∧ s'.2 ≤ s.2) ∨
      (more (cnt t) = true ∧ v.2 = true ∧ cnt v.1 = cnt t + 1 ∧ ∃ u y c, x = u ++ y ∧ o' = blen (pre ++ u) ∧
        Takes b P e x (.ok y) c ∧ s'.2 ≤ s.2 + c) ∨
      (more (cnt t) = true ∧ v.2 = false ∧ cnt v.1 = cnt t ∧ ∃ u z r c, x = u ++ z ∧ o' = blen (pre ++ u) ∧
        Takes b P e x r c ∧ r.Left b x z ∧ s'.2 ≤ s.2 + c)) s (blen pre)) :
    ∀ (fuel : Nat) (t : S) (pre x : List ι) (s : σ × Nat), d = pre ++ x → (∀ h, hi = some h → cnt t ≤ h) →
      WP (loop body fuel t) (fun t' s' o' => ∃ u z c, x = u ++ z ∧ o' = blen (pre ++ u) ∧
        Takes b P (.rep e (m - cnt t) (hi.map (· - cnt t))) x (if ok (cnt t') = true then .ok z else .no) c ∧
        s'.2 ≤ s.2 + c) s (blen pre)
  | 0, _, _, _, _, _, _ => by rintro _ _ _ ⟨⟩
  | fuel + 1, t, pre, x, s, hd, hc => by
    unfold loop
    refine WP.bind_ ((hbody t pre x s hd).mono fun ⟨t', go⟩ s' o' hv => ?_)
    have hok : ok (cnt t) = true ↔ m - cnt t = 0 := by
      rw [hl.ok_iff]
      exact ⟨fun h => by omega, fun h => ⟨by omega, hc⟩⟩
    have conv : ∀ z : List ι, (if ok (cnt t) = true then End.ok z else .no) = if m - cnt t = 0 then .ok z else .no := by
      intro z; simp only [hok]
    rcases hv with ⟨hm, hg, ht, rfl, hs⟩ | ⟨hm, hg, ht, u, y, c, rfl, rfl, hy, hs⟩ | ⟨hm, hg, ht, u, z, r, c, hx, rfl, hy, hz, hs⟩
    · subst hg
      refine WP.pure_ ⟨[], x, 0, rfl, by simp, ?_, by omega⟩
      simp only at ht
      rw [ht, conv]
      have : hi.map (· - cnt t) = some 0 := by
        cases hi with
        | none => have := (hl.more_iff (cnt t)).mpr (by simp); rw [hm] at this; cases this
        | some h =>
          have h1 := hc h rfl
          have : ¬ cnt t < h := fun hlt => by
            have := (hl.more_iff (cnt t)).mpr (by rintro _ ⟨⟩; exact hlt); rw [hm] at this; cases this
          simp; omega
      rw [this]
      exact .rep_lim
    · subst hg
      have hmore := (hl.more_iff (cnt t)).mp hm
      simp only at ht
      refine (does_loop cnt hl hbody fuel t' (pre ++ u) y s' (by simpa using hd)
        (fun h hh => by have := hmore h hh; omega)).mono fun t2 s2 o2 ⟨u2, z, c2, hx2, ho2, hk, hs2⟩ => ?_
      refine ⟨u ++ u2, z, c + c2, by simp [hx2], by rw [ho2, List.append_assoc], ?_, by omega⟩
      refine .rep_more ?_ hy ?_
      · cases hi with
        | none => simp
        | some h => have := hmore h rfl; simp; omega
      · rw [ht] at hk
        rw [Option.map_map]
        rw [show m - cnt t - 1 = m - (cnt t + 1) by omega]
        exact hk
    · subst hg
      refine WP.pure_ ⟨u, z, c, hx, rfl, ?_, by omega⟩
      simp only at ht
      rw [ht, conv]
      refine .rep_stop ?_ hy hz
      have hmore := (hl.more_iff (cnt t)).mp hm
      cases hi with
      | none => simp
      | some h => have := hmore h rfl; simp; omega

theorem does_sepLoop {S : Type} {body : S → M (σ × Nat) (S × Bool)} (cnt : S → Nat) (m : Nat) {keep : Bool}
    {e f : Plan ι}
    (hbody : ∀ t pre x s, d = pre ++ x → WP (body t) (fun v s' o' =>
      (v.2 = true ∧ cnt v.1 = cnt t + 1 ∧ ∃ u u2 y z c c2, x = u ++ y ∧ y = u2 ++ z ∧ o' = blen (pre ++ u ++ u2) ∧
        Takes b P e x (.ok y) c ∧ Takes b P f y (.ok z) c2 ∧ s'.2 ≤ s.2 + c + c2) ∨
      (v.2 = false ∧ cnt v.1 = cnt t + keep.toNat ∧ ∃ u u2 y z r c c2, x = u ++ y ∧ y = u2 ++ z ∧ o' = blen (pre ++ u ++ u2) ∧
        Takes b P e x (.ok y) c ∧ Takes b P f y r c2 ∧ r.Left b y z ∧ s'.2 ≤ s.2 + c + c2) ∨
      (v.2 = false ∧ cnt v.1 = cnt t ∧ ∃ u z r c, x = u ++ z ∧ o' = blen (pre ++ u) ∧
        Takes b P e x r c ∧ r.Left b x z ∧ s'.2 ≤ s.2 + c)) s (blen pre)) :
    ∀ (fuel : Nat) (t : S) (pre x : List ι) (s : σ × Nat), d = pre ++ x →
      WP (loop body fuel t) (fun t' s' o' => ∃ u z c, x = u ++ z ∧ o' = blen (pre ++ u) ∧
        Takes b P (.list e f keep (m - cnt t)) x (if m ≤ cnt t' then .ok z else .no) c ∧
        s'.2 ≤ s.2 + c) s (blen pre)
  | 0, _, _, _, _, _ => by rintro _ _ _ ⟨⟩
  | fuel + 1, t, pre, x, s, hd => by
    unfold loop
    refine WP.bind_ ((hbody t pre x s hd).mono fun ⟨t', go⟩ s' o' hv => ?_)
    rcases hv with ⟨hg, ht, u, u2, y, z, c, c2, rfl, rfl, rfl, hy, hz, hs⟩ |
      ⟨hg, ht, u, u2, y, z, r, c, c2, rfl, rfl, rfl, hy, hz, hl, hs⟩ | ⟨hg, ht, u, z, r, c, hx, rfl, hy, hz, hs⟩
    · subst hg
      simp only at ht
      refine (does_sepLoop cnt m hbody fuel t' (pre ++ u ++ u2) z s' (by simpa using hd)).mono
        fun t2 s2 o2 ⟨u3, z3, c3, hx3, ho3, hk, hs3⟩ => ?_
      refine ⟨u ++ u2 ++ u3, z3, c + c2 + c3, by simp [hx3], by rw [ho3]; simp, ?_, by omega⟩
      refine .list_more hy hz ?_
      rw [ht] at hk
      rw [show m - cnt t - 1 = m - (cnt t + 1) by omega]
      exact hk
    · subst hg
      simp only at ht
      refine WP.pure_ ⟨u ++ u2, z, c + c2, by simp, by simp, ?_, by omega⟩
      have := Takes.list_last (k := keep) (m := m - cnt t) hy hz hl
      rw [ht]
      rw [show (if m ≤ cnt t + keep.toNat then End.ok z else .no) = if m - cnt t - keep.toNat = 0 then .ok z else .no by
        by_cases h : m ≤ cnt t + keep.toNat
        · rw [if_pos h, if_pos (by omega)]
        · rw [if_neg h, if_neg (by omega)]]
      exact this
    · subst hg
      simp only at ht
      refine WP.pure_ ⟨u, z, c, hx, rfl, ?_, by omega⟩
      have := Takes.list_stop (s := f) (k := keep) (m := m - cnt t) hy hz
      rw [ht]
      rw [show (if m ≤ cnt t then End.ok z else .no) = if m - cnt t = 0 then .ok z else .no by
        by_cases h : m ≤ cnt t
        · rw [if_pos h, if_pos (by omega)]
        · rw [if_neg h, if_neg (by omega)]]
      exact this

/-- The end of a loop. -/
theorem does_finish {e : Plan ι} {pre x : List ι} {n : Nat} {c : Prop} [Decidable c] {a : α} {er : Error} {s : σ × Nat} {o : Nat}
    (h : ∃ u z k, x = u ++ z ∧ o = blen (pre ++ u) ∧ Takes b P e x (if c then .ok z else .no) k ∧ s.2 ≤ n + k) :
    WP (inspectErr (if c then .ok a else .error er) (blen pre)) (After b P e 0 pre x n) s o := by
  obtain ⟨u, z, k, hx, rfl, ht, hs⟩ := h
  by_cases hc : c
  · rw [if_pos hc] at ht ⊢
    exact WP.inspectErr_ (fun _ _ => .ok hx ht (by omega)) fun _ h => by cases h
  · rw [if_neg hc] at ht ⊢
    exact WP.inspectErr_ (fun _ h => by cases h) fun _ _ => .back ht (by omega)

theorem does_rep {rg : CRange} {m : Nat} {hi : Option Nat} (hl : LoopIs rg.more rg.contains m hi) (n : Nat)
    (ha : Does b P d (mt p) ea 0) : Does b P d (Imp.rep mt n p rg) (.rep ea m hi) 0 := by
  intro pre x s hd
  dsimp +zetaHave only [Imp.rep]
  refine WP.bind_ (WP.offset_ (WP.bind_ ((does_loop (b := b) (P := P) (e := ea) (fun v : Nat × Span => v.1) hl ?_ n (0, ⟨blen pre, 0⟩) pre x s hd
    (fun _ _ => Nat.zero_le _)).mono fun t' s' o' h => ?_)))
  · rintro ⟨cnt, tot⟩ pre x s hd
    by_cases hm : rg.more cnt = true
    · simp only [hm, if_true]
      refine WP.bind_ (ha.use hd (fun a s1 t y c hx ht hc => ?_) fun er s1 t z r c hx ht hz hc => ?_)
      · exact WP.bind_ (WP.addAssign_ fun _ => WP.pure_ (.inr (.inl ⟨by trivial, rfl, rfl, t, y, c, hx, rfl, ht, hc⟩)))
      · exact WP.pure_ (.inr (.inr ⟨by trivial, rfl, rfl, t, z, r, c, hx, rfl, ht, hz, hc⟩))
    · simp only [hm, if_false]
      exact WP.pure_ (.inl ⟨by simp, rfl, rfl, rfl, Nat.le_refl _⟩)
  · simp only [Nat.sub_zero, Option.map_id'] at h
    exact does_finish h

theorem does_repC {rg : CRange} {m : Nat} {hi : Option Nat} (hl : LoopIs rg.more rg.contains m hi) (n : Nat)
    (ha : Does b P d (cn p) ea 0) : Does b P d (Imp.repC cn n p rg) (.rep ea m hi) 0 := by
  intro pre x s hd
  dsimp +zetaHave only [Imp.repC]
  refine WP.bind_ (WP.offset_ (WP.bind_ ((does_loop (b := b) (P := P) (e := ea) (fun v : Nat × List (Val β) => v.1) hl ?_ n (0, []) pre x s hd
    (fun _ _ => Nat.zero_le _)).mono fun t' s' o' h => ?_)))
  · rintro ⟨cnt, tot⟩ pre x s hd
    by_cases hm : rg.more cnt = true
    · simp only [hm, if_true]
      refine WP.bind_ (ha.use hd (fun a s1 t y c hx ht hc => ?_) fun er s1 t z r c hx ht hz hc => ?_)
      · exact WP.pure_ (.inr (.inl ⟨by trivial, rfl, rfl, t, y, c, hx, rfl, ht, hc⟩))
      · exact WP.pure_ (.inr (.inr ⟨by trivial, rfl, rfl, t, z, r, c, hx, rfl, ht, hz, hc⟩))
    · simp only [hm, if_false]
      exact WP.pure_ (.inl ⟨by simp, rfl, rfl, rfl, Nat.le_refl _⟩)
  · simp only [Nat.sub_zero, Option.map_id'] at h
    exact does_finish h

theorem does_collect (m n : Nat) (ha : Does b P d (mt p) ea 0) : Does b P d (Imp.collect mt n p m) (.rep ea m none) 0 := by
  intro pre x s hd
  dsimp +zetaHave only [Imp.collect]
  refine WP.bind_ (WP.offset_ (WP.bind_ ((does_loop (b := b) (P := P) (e := ea) (fun v : Nat × Span => v.1) (collect_loop m) ?_ n (0, ⟨blen pre, 0⟩) pre x s hd
    (fun _ _ => Nat.zero_le _)).mono fun t' s' o' h => ?_)))
  · rintro ⟨cnt, tot⟩ pre x s hd
    refine WP.bind_ (ha.use hd (fun a s1 t y c hx ht hc => ?_) fun er s1 t z r c hx ht hz hc => ?_)
    · exact WP.bind_ (WP.addAssign_ fun _ => WP.pure_ (.inr (.inl ⟨by trivial, rfl, rfl, t, y, c, hx, rfl, ht, hc⟩)))
    · exact WP.pure_ (.inr (.inr ⟨by trivial, rfl, rfl, t, z, r, c, hx, rfl, ht, hz, hc⟩))
  · simp only [Nat.sub_zero, Option.map_none, decide_eq_true_eq] at h
    exact does_finish h

theorem does_collectC (m n : Nat) (ha : Does b P d (cn p) ea 0) : Does b P d (Imp.collectC cn n p m) (.rep ea m none) 0 := by
  intro pre x s hd
  dsimp +zetaHave only [Imp.collectC]
  refine WP.bind_ (WP.offset_ (WP.bind_ ((does_loop (b := b) (P := P) (e := ea) (fun v : Nat × List (Val β) => v.1) (collect_loop m) ?_ n (0, []) pre x s hd
    (fun _ _ => Nat.zero_le _)).mono fun t' s' o' h => ?_)))
  · rintro ⟨cnt, tot⟩ pre x s hd
    refine WP.bind_ (ha.use hd (fun a s1 t y c hx ht hc => ?_) fun er s1 t z r c hx ht hz hc => ?_)
    · exact WP.pure_ (.inr (.inl ⟨by trivial, rfl, rfl, t, y, c, hx, rfl, ht, hc⟩))
    · exact WP.pure_ (.inr (.inr ⟨by trivial, rfl, rfl, t, z, r, c, hx, rfl, ht, hz, hc⟩))
  · simp only [Nat.sub_zero, Option.map_none, decide_eq_true_eq] at h
    exact does_finish h

theorem does_sepRound {keep : Bool} (ha : Does b P d (mt p) ea 0) (hb : Does b P d (mt q) eb 0) (v : Nat × Span)
    (pre x : List ι) (s : σ × Nat) (hd : d = pre ++ x) :
    WP (do match ← mt p with
        | .ok pSpan => Imp.sepBody mt q keep v.1 v.2 pSpan
        | .error _ => return (v, false)) (fun w s' o' =>
      (w.2 = true ∧ w.1.1 = v.1 + 1 ∧ ∃ u u2 y z c c2, x = u ++ y ∧ y = u2 ++ z ∧ o' = blen (pre ++ u ++ u2) ∧
        Takes b P ea x (.ok y) c ∧ Takes b P eb y (.ok z) c2 ∧ s'.2 ≤ s.2 + c + c2) ∨
      (w.2 = false ∧ w.1.1 = v.1 + keep.toNat ∧ ∃ u u2 y z r c c2, x = u ++ y ∧ y = u2 ++ z ∧ o' = blen (pre ++ u ++ u2) ∧
        Takes b P ea x (.ok y) c ∧ Takes b P eb y r c2 ∧ r.Left b y z ∧ s'.2 ≤ s.2 + c + c2) ∨
      (w.2 = false ∧ w.1.1 = v.1 ∧ ∃ u z r c, x = u ++ z ∧ o' = blen (pre ++ u) ∧
        Takes b P ea x r c ∧ r.Left b x z ∧ s'.2 ≤ s.2 + c)) s (blen pre) := by
  refine WP.bind_ (ha.use hd (fun a s1 t y c hx ht hc => ?_) fun er s1 t z r c hx ht hz hc => ?_)
  · dsimp +zetaHave only [Imp.sepBody]
    refine WP.bind_ (hb.use (by rw [List.append_assoc, ← hx]; exact hd) (fun a s2 t2 y2 c2 hx2 ht2 hc2 => ?_)
      fun er s2 t2 z2 r2 c2 hx2 ht2 hz2 hc2 => ?_)
    · exact WP.bind_ (WP.addAssign_ fun _ => WP.bind_ (WP.addAssign_ fun _ => WP.bind_ (WP.pure_ (WP.pure_ (Or.inl
        ⟨rfl, rfl, t, t2, y, y2, c, c2, hx, hx2, rfl, ht, ht2, by omega⟩)))))
    · cases keep with
      | true =>
        exact WP.bind_ (WP.addAssign_ fun _ => WP.bind_ (WP.pure_ (WP.pure_ (Or.inr (.inl
          ⟨rfl, rfl, t, t2, y, z2, r2, c, c2, hx, hx2, rfl, ht, ht2, hz2, by omega⟩)))))
      | false =>
        exact WP.bind_ (WP.pure_ (WP.pure_ (.inr (.inl
          ⟨rfl, rfl, t, t2, y, z2, r2, c, c2, hx, hx2, rfl, ht, ht2, hz2, by omega⟩))))
  · exact WP.pure_ (.inr (.inr ⟨rfl, rfl, t, z, r, c, hx, rfl, ht, hz, hc⟩))

theorem does_sep (keep : Bool) (m n : Nat) (ha : Does b P d (mt p) ea 0) (hb : Does b P d (mt q) eb 0) :
    Does b P d (Imp.sep mt n p q keep m) (.list ea eb keep m) 0 := by
  intro pre x s hd
  dsimp +zetaHave only [Imp.sep]
  refine WP.bind_ (WP.offset_ (WP.bind_ ((does_sepLoop (b := b) (P := P) (e := ea) (f := eb) (keep := keep) (fun v : Nat × Span => v.1) m
    (fun v pre x s hd => does_sepRound ha hb v pre x s hd) n (0, ⟨blen pre, 0⟩) pre x s hd).mono fun t' s' o' h => ?_)))
  simp only [Nat.sub_zero] at h
  exact does_finish h

theorem does_sepCollect (keep : Bool) (m n : Nat) (ha : Does b P d (mt p) ea 0) (hb : Does b P d (mt q) eb 0) :
    Does b P d (Imp.sepCollect mt n p q keep m) (.list ea eb keep m) 0 := by
  intro pre x s hd
  dsimp +zetaHave only [Imp.sepCollect]
  refine WP.bind_ (WP.offset_ (WP.bind_ ((does_sepLoop (b := b) (P := P) (e := ea) (f := eb) (keep := keep) (fun v : Nat × Span => v.1) m
    (fun v pre x s hd => does_sepRound ha hb v pre x s hd) n (0, ⟨blen pre, 0⟩) pre x s hd).mono fun t' s' o' h => ?_)))
  simp only [Nat.sub_zero] at h
  exact does_finish h

theorem does_sepC (keep : Bool) (m n : Nat) (ha : Does b P d (cn p) ea 0) (hb : Does b P d (mt q) eb 0) :
    Does b P d (Imp.sepC mt cn n p q keep m) (.list ea eb keep m) 0 := by
  intro pre x s hd
  dsimp +zetaHave only [Imp.sepC]
  refine WP.bind_ (WP.offset_ (WP.bind_ ((does_sepLoop (b := b) (P := P) (e := ea) (f := eb) (keep := keep)
    (fun v : List (Val β) => v.length) m ?_ n [] pre x s hd).mono fun t' s' o' h => ?_)))
  · intro v pre x s hd
    refine WP.bind_ (ha.use hd (fun a s1 t y c hx ht hc => ?_) fun er s1 t z r c hx ht hz hc => ?_)
    · refine WP.bind_ (hb.use (by rw [List.append_assoc, ← hx]; exact hd) (fun a s2 t2 y2 c2 hx2 ht2 hc2 => ?_)
        fun er s2 t2 z2 r2 c2 hx2 ht2 hz2 hc2 => ?_)
      · exact WP.pure_ (.inl ⟨rfl, by simp [isOk], t, t2, y, y2, c, c2, hx, hx2, rfl, ht, ht2, by omega⟩)
      · exact WP.pure_ (.inr (.inl ⟨rfl, by cases keep <;> simp [isOk], t, t2, y, z2, r2, c, c2, hx, hx2, rfl, ht, ht2, hz2, by omega⟩))
    · exact WP.pure_ (.inr (.inr ⟨rfl, rfl, t, z, r, c, hx, rfl, ht, hz, hc⟩))
  · simp only [List.length_nil, Nat.sub_zero] at h
    exact does_finish h

/-! ## Building -/

theorem does_thnC (ha : Does b P d (cn p) ea 0) (hb : Does b P d (cn q) eb 0) :
    Does b P d (Imp.thnC cn p q) (.seq ea eb) 0 := by
  intro pre x s hd
  dsimp +zetaHave only [Imp.thnC]
  have fin : ∀ (ret : Except Error (Val β)) (g : Guard) (s' : σ × Nat) (o' : Nat),
      GWP (GM.processRet ret >>= fun r => GM.try_ r) (fun r g' s2 o2 => s2 = s' ∧ o2 = o' ∧ r = ret ∧
        g' = match ret with | .ok _ => g | .error _ => { g with reset := true }) g s' o' := by
    intro ret g s' o'
    refine GWP.bind_ (GWP.processRet_ ⟨fun a ha => ?_, fun e he => by cases he⟩)
    cases ha
    refine GWP.try__ ?_
    cases ret <;> exact ⟨rfl, rfl, rfl, rfl⟩
  refine WP.guarded_ (GWP.bind_ (GWP.call_ (WP.bind_ (ha.use hd (fun a s1 t y c hx ht hc => ?_) fun er s1 t z r c hx ht hz hc => ?_))))
  · refine WP.bind_ (hb.use (by rw [List.append_assoc, ← hx]; exact hd) (fun a s2 t2 y2 c2 hx2 ht2 hc2 => ?_)
        fun er s2 t2 z2 r2 c2 hx2 ht2 hz2 hc2 => ?_)
    · refine WP.pure_ ⟨fun v hv => ?_, fun _ h => by cases h⟩
      cases hv
      refine (fin _ _ _ _).mono ?_
      rintro r g' s' o' ⟨rfl, rfl, rfl, rfl⟩
      rw [List.append_assoc]
      exact .ok (by rw [hx, hx2, List.append_assoc]) (.seq_ok ht ht2) (by omega)
    · refine WP.pure_ ⟨fun v hv => ?_, fun _ h => by cases h⟩
      cases hv
      refine (fin _ _ _ _).mono ?_
      rintro r g' s' o' ⟨rfl, rfl, rfl, rfl⟩
      exact .back (.seq_no2 ht ht2 (left_fails hz2)) (by omega)
  · refine WP.pure_ ⟨fun v hv => ?_, fun _ h => by cases h⟩
    cases hv
    refine (fin _ _ _ _).mono ?_
    rintro r g' s' o' ⟨rfl, rfl, rfl, rfl⟩
    exact .back (.seq_no ht (left_fails hz)) (by omega)

theorem does_preC (ha : Does b P d (mt p) ea 0) (hb : Does b P d (cn q) eb 0) :
    Does b P d (Imp.preC mt cn p q) (.seq ea eb) 0 := by
  intro pre x s hd
  dsimp +zetaHave only [Imp.preC]
  refine WP.guarded_ (must ha hd ⟨fun a s1 t y c hx hd1 ht hc => ?_, fun er s1 t z r c hx ht hz hc => ?_⟩)
  · refine mustRetLast hb hd1 ⟨fun a s2 t2 y2 c2 hx2 hd2 ht2 hc2 => ?_, fun er s2 t2 z2 r c2 hx2 ht2 hz2 hc2 => ?_⟩
    · rw [List.append_assoc]
      exact .ok (by rw [hx, hx2, List.append_assoc]) (.seq_ok ht ht2) (by omega)
    · exact .back (.seq_no2 ht ht2 (left_fails hz2)) (by omega)
  · exact .back (.seq_no ht (left_fails hz)) (by omega)

theorem does_sufC (ha : Does b P d (cn p) ea 0) (hb : Does b P d (mt q) eb 0) :
    Does b P d (Imp.sufC mt cn p q) (.seq ea eb) 0 := by
  intro pre x s hd
  dsimp +zetaHave only [Imp.sufC]
  refine WP.guarded_ (GWP.bind_ (GWP.call_ (ha.use hd (fun a s1 t y c hx ht hc => ?_) fun er s1 t z r c hx ht hz hc => ?_)))
  · refine ⟨fun v hv => ?_, fun _ h => by cases h⟩
    cases hv
    rw [if_pos (show isOk (Except.ok _) = true from rfl)]
    refine must hb (by rw [List.append_assoc, ← hx]; exact hd) ⟨fun a s2 t2 y2 c2 hx2 hd2 ht2 hc2 => ?_, fun er s2 t2 z2 r c2 hx2 ht2 hz2 hc2 => ?_⟩
    · refine GWP.bind_ (GWP.processRet_ ⟨fun a ha => ?_, fun e he => by cases he⟩)
      cases ha
      refine GWP.try__ ?_
      rw [List.append_assoc]
      exact .ok (by rw [hx, hx2, List.append_assoc]) (.seq_ok ht ht2) (by omega)
    · exact .back (.seq_no2 ht ht2 (left_fails hz2)) (by omega)
  · refine ⟨fun v hv => ?_, fun _ h => by cases h⟩
    cases hv
    rw [if_neg (show ¬ isOk (Except.error _) = true from nofun)]
    refine GWP.bind_ (GWP.processRet_ ⟨fun a ha => ?_, fun e he => by cases he⟩)
    cases ha
    refine GWP.try__ ?_
    exact .back (.seq_no ht (left_fails hz)) (by omega)

theorem does_encloseC (ha : Does b P d (mt p) ea 0) (hb : Does b P d (cn q) eb 0) (hc : Does b P d (mt r) ec 0) :
    Does b P d (Imp.encloseC mt cn p q r) (.seq ea (.seq eb ec)) 0 := by
  intro pre x s hd
  dsimp +zetaHave only [Imp.encloseC]
  refine WP.guarded_ (must ha hd ⟨fun a s1 t y c hx hd1 ht hc1 => ?_, fun er s1 t z r c hx ht hz hc => ?_⟩)
  · refine mustRet hb hd1 ⟨fun a s2 t2 y2 c2 hx2 hd2 ht2 hc2 => ?_, fun er s2 t2 z2 r c2 hx2 ht2 hz2 hc2 => ?_⟩
    · refine must hc hd2 ⟨fun a s3 t3 y3 c3 hx3 hd3 ht3 hc3 => ?_, fun er s3 t3 z3 r c3 hx3 ht3 hz3 hc3 => ?_⟩
      · refine GWP.pure_ ?_
        rw [List.append_assoc, List.append_assoc]
        exact .ok (by simp [hx, hx2, hx3]) (.seq_ok ht (.seq_ok ht2 ht3)) (by omega)
      · exact .back (.seq_no2 ht (.seq_no2 ht2 ht3 (left_fails hz3)) trivial) (by omega)
    · exact .back (.seq_no2 ht (.seq_no ht2 (left_fails hz2)) trivial) (by omega)
  · exact .back (.seq_no ht (left_fails hz)) (by omega)

theorem does_sepOnceC (ha : Does b P d (cn p) ea 0) (hb : Does b P d (mt q) eb 0) (hc : Does b P d (cn r) ec 0) :
    Does b P d (Imp.sepOnceC mt cn p q r) (.seq ea (.seq eb ec)) 0 := by
  intro pre x s hd
  dsimp +zetaHave only [Imp.sepOnceC]
  refine WP.guarded_ (mustRet ha hd ⟨fun a s1 t y c hx hd1 ht hc1 => ?_, fun er s1 t z r c hx ht hz hc => ?_⟩)
  · refine must hb hd1 ⟨fun a s2 t2 y2 c2 hx2 hd2 ht2 hc2 => ?_, fun er s2 t2 z2 r c2 hx2 ht2 hz2 hc2 => ?_⟩
    · refine mustRet hc hd2 ⟨fun a s3 t3 y3 c3 hx3 hd3 ht3 hc3 => ?_, fun er s3 t3 z3 r c3 hx3 ht3 hz3 hc3 => ?_⟩
      · refine GWP.pure_ ?_
        rw [List.append_assoc, List.append_assoc]
        exact .ok (by simp [hx, hx2, hx3]) (.seq_ok ht (.seq_ok ht2 ht3)) (by omega)
      · exact .back (.seq_no2 ht (.seq_no2 ht2 ht3 (left_fails hz3)) trivial) (by omega)
    · exact .back (.seq_no2 ht (.seq_no ht2 (left_fails hz2)) trivial) (by omega)
  · exact .back (.seq_no ht (left_fails hz)) (by omega)

theorem does_ifThenC (ha : Does b P d (cn p) ea 0) (hb : Does b P d (mt q) eb 0) (hc : Does b P d (cn r) ec 0) :
    Does b P d (Imp.ifThenC mt cn p q r) (.seq ea (.cond eb ec)) 0 := by
  intro pre x s hd
  dsimp +zetaHave only [Imp.ifThenC]
  refine WP.guarded_ (mustRet ha hd ⟨fun a s1 t y c hx hd1 ht hc1 => ?_, fun er s1 t z r c hx ht hz hc => ?_⟩)
  · refine GWP.bind_ (GWP.call_ (does_probe hb hd1 (fun a s2 t2 y2 c2 hx2 hd2 ht2 hc2 => ⟨fun _ h => ?_, fun _ h => by cases h⟩)
      fun er s2 r c2 ht2 hr hc2 => ⟨fun _ h => ?_, fun _ h => by cases h⟩))
    · cases h
      rw [if_pos (show isOk (Except.ok _) = true from rfl)]
      refine mustRet hc hd2 ⟨fun a s3 t3 y3 c3 hx3 hd3 ht3 hc3 => ?_, fun er s3 t3 z3 r c3 hx3 ht3 hz3 hc3 => ?_⟩
      · refine GWP.pure_ ?_
        rw [List.append_assoc, List.append_assoc]
        exact .ok (by simp [hx, hx2, hx3]) (.seq_ok ht (.cond_ok ht2 ht3)) (by omega)
      · exact .back (.seq_no2 ht (.cond_no ht2 ht3 (left_fails hz3)) trivial) (by omega)
    · cases h
      rw [if_neg (show ¬ isOk (Except.error _) = true from nofun)]
      refine GWP.pure_ ?_
      exact .ok hx (.seq_ok ht (.cond_not ht2 hr)) (by omega)
  · exact .back (.seq_no ht (left_fails hz)) (by omega)

theorem does_mapC (f : Val β → Out (Val β)) (ha : Does b P d (cn p) ea 0) :
    Does b P d (Imp.mapC cn p f) (.may ea) 0 := by
  intro pre x s hd
  unfold Imp.mapC
  refine WP.bind_ (ha.use hd (fun a s1 t y c hx ht hc => ?_) fun er s1 t z r c hx ht hz hc => ?_)
  · intro r s' o' hr
    unfold peekCtx at hr
    cases hf : f a with
    | ok v => simp only [hf] at hr; cases hr; exact .ok hx (.may ht) (by omega)
    | err er => simp only [hf] at hr; cases hr; exact ⟨t, y, .late y, c, hx, rfl, .may_late ht, rfl, by omega⟩
    | panic => simp only [hf] at hr; cases hr
  · exact WP.pure_ ⟨t, z, r, c, hx, rfl, .may ht, hz, by omega⟩

theorem does_invoke {m : M (σ × Nat) (Except Error Span)} (ha : Does b P d m ea 0) :
    Does b P d (Imp.invoke H.beside d m) (.may ea) 0 := by
  intro pre x s hd
  unfold Imp.invoke
  refine WP.bind_ (ha.use hd (fun a s1 t y c hx ht hc => ?_) fun er s1 t z r c hx ht hz hc => ?_)
  · intro r s' o' hr
    simp only [Handler.beside] at hr
    split at hr
    · rename_i h; simp only [Prod.mk.injEq] at h; obtain ⟨-, rfl⟩ := h; cases hr; exact .ok hx (.may ht) (by simpa using hc)
    · rename_i h; simp only [Prod.mk.injEq] at h; obtain ⟨-, rfl⟩ := h; cases hr; exact ⟨t, y, .late y, c, hx, rfl, .may_late ht, rfl, by simpa using hc⟩
    · cases hr
  · exact WP.pure_ ⟨t, z, r, c, hx, rfl, .may ht, hz, by omega⟩

end

/-! ## Whole patterns -/

theorem calls_noLate {p : Pat ι β} {er items} (hp : p = .choice er items) {e : Plan ι} (h : Calls w S p e) (x y c) :
    ¬ Takes b P e x (.late y) c := by
  subst hp
  cases h with
  | part h1 h2 => exact absurd rfl (h1 _ _)
  | leaf h1 h2 => exact absurd h1 id
  | choice_nil => nofun
  | choice_cons => rintro ⟨⟩; rename_i h; cases h

theorem builds_noLate {p : Pat ι β} {er items} (hp : p = .choice er items) {e : Plan ι} (h : Builds w S p e) (x y c) :
    ¬ Takes b P e x (.late y) c := by
  subst hp
  cases h with
  | unit h1 h2 => cases h1
  | leaf h1 h2 => exact absurd h1 id
  | choice_nil => nofun
  | choice_cons => rintro ⟨⟩; rename_i h; cases h

theorem does_fail {er : Error} : Does (σ := σ) (α := α) b P d (pure (.error er)) .fail 1 := by
  intro pre x s hd
  exact WP.pure_ (.back .fail (by omega))

theorem does_nt {m : M (σ × Nat) (Except Error α)} {k : Bool} {i : Nat} (h : Does b P d m (P k i) 0) : Does b P d m (.nt k i) 1 := by
  intro pre x s hd
  refine h.use hd (fun a s' t y c h1 h2 h3 => .ok h1 (.nt h2) (by omega)) fun er s' t z r c h1 h2 h3 h4 => ?_
  exact ⟨t, z, r, c + 1, h1, rfl, .nt h2, h3, by omega⟩

theorem choice_tryAll {mt : Pat ι β → M (σ × Nat) (Except Error Span)} {er : Error} {items} :
    Imp.choice mt er items = offset >>= fun o => tryAll mt (fun _ v => v) o items (.error er) := by
  unfold Imp.choice tryAll
  congr 1; funext o; congr 1; funext it ret
  congr 1; funext v; congr 1; funext r
  cases r <;> rfl

theorem choiceC_tryAll {cn : Pat ι β → M (σ × Nat) (Except Error (Val β))} {er : Error} {items} :
    Imp.choiceC cn er items = offset >>= fun o => tryAll cn (fun it v => tagged it.2 v) o items (.error er) := by
  unfold Imp.choiceC tryAll
  congr 1; funext o; congr 1; funext it ret
  congr 1; funext v; congr 1; funext r
  cases r <;> rfl

theorem does_choice {mt : Pat ι β → M (σ × Nat) (Except Error Span)} {er : Error}
    (ih : ∀ p e, Calls w S p e → Does (σ := σ) b P d (mt p) (e.via w) 0) :
    ∀ {items e}, Calls w S (.choice er items) e → Does b P d (Imp.choice mt er items) e 1 := by
  intro items e h
  have key : ∀ pre x, d = pre ++ x → ∀ items e, Calls w S (.choice er items) e → ∀ s,
      WP (tryAll mt (fun _ v => v) (blen pre) items (.error er)) (Tried b P e pre x s.2) s (blen pre) := by
    intro pre x hd items
    induction items with
    | nil =>
      intro e h s
      cases h with
      | part h1 h2 => exact absurd rfl (h1 _ _)
      | leaf h1 h2 => exact absurd h1 id
      | choice_nil => exact tried_nil pre x s
    | cons it items ih2 =>
      intro e h s
      cases h with
      | part h1 h2 => exact absurd rfl (h1 _ _)
      | leaf h1 h2 => exact absurd h1 id
      | choice_cons _ ha hb => exact tried_cons hd (ih _ _ ha) (ih2 _ hb) s
  refine does_tried (fun pre x s hd => ?_) fun x y c => calls_noLate rfl h x y c
  rw [choice_tryAll]
  exact WP.bind_ (WP.offset_ (key pre x hd items e h s))

theorem does_choiceC {cn : Pat ι β → M (σ × Nat) (Except Error (Val β))} {er : Error}
    (ih : ∀ p e, Builds w S p e → Does (σ := σ) b P d (cn p) e 0) :
    ∀ {items e}, Builds w S (.choice er items) e → Does b P d (Imp.choiceC cn er items) e 1 := by
  intro items e h
  have key : ∀ pre x, d = pre ++ x → ∀ items e, Builds w S (.choice er items) e → ∀ s,
      WP (tryAll cn (fun it v => tagged it.2 v) (blen pre) items (.error er)) (Tried b P e pre x s.2) s (blen pre) := by
    intro pre x hd items
    induction items with
    | nil =>
      intro e h s
      cases h with
      | unit h1 h2 => cases h1
      | leaf h1 h2 => exact absurd h1 id
      | choice_nil => exact tried_nil pre x s
    | cons it items ih2 =>
      intro e h s
      cases h with
      | unit h1 h2 => cases h1
      | leaf h1 h2 => exact absurd h1 id
      | choice_cons _ ha hb => exact tried_cons hd (ih _ _ ha) (ih2 _ hb) s
  refine does_tried (fun pre x s hd => ?_) fun x y c => builds_noLate rfl h x y c
  rw [choiceC_tryAll]
  exact WP.bind_ (WP.offset_ (key pre x hd items e h s))

/-- Counts do not depend on what is beside the counter. -/
theorem work_shift (G : Rules ι β) (j : Nat) : ∀ (n : Nat) (pol : Option (Pat ι β)) (d : List ι)
    (p : Pat ι β), MRel (fun (a : σ × Nat) (b : Unit × Nat) => a.2 = b.2 + j) (workParse G n pol d p) (workParse G n pol d p)
  | 0 => fun _ _ _ _ _ _ _ => trivial
  | n + 1 => by
    intro pol d p s t o h
    have ih := work_shift G j n
    exact rel_step (fun d q => rel_mat ih pol d q) (Nat.le_refl n) (fun q => ih pol d q) p
      (s.1, s.2 + 1) (t.1, t.2 + 1) o (by simp only [h]; omega)

theorem does_part {p : Pat ι β} {k : Nat} {n : Bool} {f : ι → Bool} (hm : Measured G pol b p k n f) (fuel : Nat) :
    Does (σ := σ) b P d (workParse G fuel pol d p) (.part k n f) 0 := by
  intro pre x s hd r s' o' hr
  subst hd
  have := work_shift (σ := σ) G s.2 fuel pol (pre ++ x) p s ((), 0) (blen pre) (by simp)
  rw [hr] at this
  obtain ⟨t, ht, e⟩ := this
  obtain ⟨u, c⟩ := t
  have := hm fuel pre x r c o' ht
  cases r with
  | ok a =>
    obtain ⟨t, y, h1, rfl, h3, h4, h5⟩ := this
    exact ⟨t, y, c, h1, rfl, .part_ok h1 h3 h4 h5, by simp only at e; omega⟩
  | error er =>
    obtain ⟨rfl, h⟩ := this
    exact .back (.part_no h) (by simp only at e; omega)

theorem does_parse (hS : ∀ p k n f, S p k n f → Measured G pol b p k n f) (hG : CallsRules w S G P)
    (hpol : SkipsBlanks w pol b) :
    ∀ n p e, Calls w S p e → Does (σ := σ) b P d (workParse G n pol d p) e 0 := by
  intro n
  induction n with
  | zero => intro p e _ pre x s hd; rintro _ _ _ ⟨⟩
  | succ n ih =>
    have im : ∀ p e, Calls w S p e → Does (σ := σ) b P d (workMat G n pol d p) (e.via w) 0 :=
      fun p e h => does_mat hpol (ih p e h)
    intro p e h
    cases h with
    | part _ hs => exact does_part (hS _ _ _ _ hs) (n + 1)
    | leaf hp ha => exact does_leaf hp ha (n + 1)
    | fail => exact does_tick does_fail
    | cell i =>
      refine does_tick ?_
      show Does b P d (match G i with | none => pure (.error .option) | some q => workParse G n pol d q) (.nt false i) 1
      rcases hG i with ⟨q, hq, hc⟩ | ⟨hq, hc⟩
      · rw [hq]; exact does_nt (ih _ _ hc)
      · rw [hq]; refine does_nt ?_
        rw [hc]
        intro pre x s hd
        exact WP.pure_ (.back .fail (by omega))
    | map f ha => exact does_tick (does_call (im _ _ ha))
    | pat ha => exact does_tick (does_call (im _ _ ha))
    | thn ha hb => exact does_tick (does_call (does_thn (im _ _ ha) (im _ _ hb)))
    | pre ha hb => exact does_tick (does_call (does_thn (im _ _ ha) (im _ _ hb)))
    | suf ha hb => exact does_tick (does_call (does_thn (im _ _ ha) (im _ _ hb)))
    | enclose ha hb hc => exact does_tick (does_call (does_enclose (im _ _ ha) (im _ _ hb) (im _ _ hc)))
    | sepOnce ha hb hc => exact does_tick (does_call (does_sepOnce (im _ _ ha) (im _ _ hb) (im _ _ hc)))
    | ifThen ha hb hc => exact does_tick (does_call (does_ifThen (im _ _ ha) (im _ _ hb) (im _ _ hc)))
    | or ha hb => exact does_tick (does_call (does_or (im _ _ ha) (im _ _ hb)))
    | opt ha => exact does_tick (does_call (does_opt (im _ _ ha)))
    | choice_nil er => exact does_tick (does_choice im (.choice_nil er))
    | choice_cons er ha hb => exact does_tick (does_choice im (.choice_cons er ha hb))
    | rep r m k ha hc => exact does_tick (does_call (does_rep (counts_loop hc) n (im _ _ ha)))
    | collect m ha => exact does_tick (does_call (does_collect m n (im _ _ ha)))
    | sep keep m ha hb => exact does_tick (does_call (does_sep keep m n (im _ _ ha) (im _ _ hb)))
    | sepCollect keep m ha hb => exact does_tick (does_call (does_sepCollect keep m n (im _ _ ha) (im _ _ hb)))

theorem does_con (hS : ∀ p k n f, S p k n f → Measured G pol b p k n f) (hG : CallsRules w S G P)
    (hB : BuildsRules w S G P) (hpol : SkipsBlanks w pol b) :
    ∀ n p e, Builds w S p e → Does (σ := σ) b P d (workCon G H n pol d p) e 0 := by
  intro n
  induction n with
  | zero => intro p e _ pre x s hd; rintro _ _ _ ⟨⟩
  | succ n ih =>
    have im : ∀ p e, Calls w S p e → Does (σ := σ) b P d (workMat G n pol d p) (e.via w) 0 :=
      fun p e h => does_mat hpol (does_parse hS hG hpol n p e h)
    have im' : ∀ p e, Calls w S p e → Does (σ := σ) b P d (workMat G (n + 1) pol d p) (e.via w) 0 :=
      fun p e h => does_mat hpol (does_parse hS hG hpol (n + 1) p e h)
    intro p e h
    cases h with
    | leaf hp ha =>
      refine does_tick ?_
      have key : Does (σ := σ) b P d (Imp.invoke H.beside d (workMat G (n + 1) pol d p)) _ 1 :=
        does_call (does_invoke (im' _ _ (.leaf hp ha)))
      cases p <;> first | exact absurd hp id | exact key
    | fail => exact does_tick (does_call (does_invoke (im' _ _ .fail)))
    | unit hp hs =>
      refine does_tick ?_
      have key : Does (σ := σ) b P d (Imp.invoke H.beside d (workMat G (n + 1) pol d p)) _ 1 :=
        does_call (does_invoke (im' _ _ (.part (by rintro _ _ rfl; cases hp) hs)))
      cases p <;> first | (simp only [condOf, reduceCtorEq] at hp; done) | exact key
    | cell i =>
      refine does_tick ?_
      show Does b P d (match G i with | none => pure (.error .option) | some q => workCon G H n pol d q) (.nt true i) 1
      rcases hB i with ⟨q, hq, hc⟩ | ⟨hq, hc⟩
      · rw [hq]; exact does_nt (ih _ _ hc)
      · rw [hq]; refine does_nt ?_
        rw [hc]
        intro pre x s hd
        exact WP.pure_ (.back .fail (by omega))
    | map f ha => exact does_tick (does_call (does_mapC f (ih _ _ ha)))
    | pat ha => exact does_tick (does_call (does_invoke (im _ _ ha)))
    | thn ha hb => exact does_tick (does_call (does_thnC (ih _ _ ha) (ih _ _ hb)))
    | pre ha hb => exact does_tick (does_call (does_preC (im _ _ ha) (ih _ _ hb)))
    | suf ha hb => exact does_tick (does_call (does_sufC (ih _ _ ha) (im _ _ hb)))
    | enclose ha hb hc => exact does_tick (does_call (does_encloseC (im _ _ ha) (ih _ _ hb) (im _ _ hc)))
    | sepOnce ha hb hc => exact does_tick (does_call (does_sepOnceC (ih _ _ ha) (im _ _ hb) (ih _ _ hc)))
    | ifThen ha hb hc => exact does_tick (does_call (does_ifThenC (ih _ _ ha) (im _ _ hb) (ih _ _ hc)))
    | or ha hb => exact does_tick (does_call (does_orC (ih _ _ ha) (ih _ _ hb)))
    | opt ha => exact does_tick (does_call (does_optC (ih _ _ ha)))
    | choice_nil er => exact does_tick (does_choiceC ih (.choice_nil er))
    | choice_cons er ha hb => exact does_tick (does_choiceC ih (.choice_cons er ha hb))
    | rep r m k ha hc => exact does_tick (does_call (does_repC (counts_loop hc) n (ih _ _ ha)))
    | collect m ha => exact does_tick (does_call (does_collectC m n (ih _ _ ha)))
    | sep keep m ha hb => exact does_tick (does_call (does_sepC keep m n (ih _ _ ha) (im _ _ hb)))

end Neure
