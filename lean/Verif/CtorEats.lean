import Verif.Work
import Verif.WorkBound
import Verif.PropsTerm
/-!
# Building values: what consumes
-/

namespace Neure

set_option linter.unusedSectionVars false

variable {ι β σ α : Type} [Item ι] {G : Rules ι β} {H : Handler ι β σ} {pol : Option (Pat ι β)} {d : List ι}

/-- `x` moves forward and stays inside. -/
def Stays (L : Nat) (x : M σ (Except Error α)) : Prop :=
  ∀ s o, o ≤ L → WP x (fun _ _ o' => o ≤ o' ∧ o' ≤ L) s o

/-- A success moves. -/
def Moves (L : Nat) (x : M σ (Except Error α)) : Prop :=
  ∀ s o, o ≤ L → WP x (fun r _ o' => o ≤ o' ∧ o' ≤ L ∧ (isOk r = true → o < o')) s o

theorem Stays.use {L : Nat} {x : M σ (Except Error α)} {Q : Except Error α → σ → Nat → Prop}
    {s : σ} {o : Nat} (h : Stays L x) (ho : o ≤ L) (h' : ∀ r s' o', o ≤ o' → o' ≤ L → Q r s' o') : WP x Q s o :=
  (h s o ho).mono fun r s' o' ⟨h2, h3⟩ => h' r s' o' h2 h3

theorem Moves.use {L : Nat} {x : M σ (Except Error α)} {Q : Except Error α → σ → Nat → Prop}
    {s : σ} {o : Nat} (h : Moves L x) (ho : o ≤ L)
    (h' : ∀ r s' o', o ≤ o' → o' ≤ L → (isOk r = true → o < o') → Q r s' o') : WP x Q s o :=
  (h s o ho).mono fun r s' o' ⟨h2, h3, h4⟩ => h' r s' o' h2 h3 h4

theorem WP.loop_inv {T : Type} {body : T → M σ (T × Bool)} (I : T → Nat → Prop)
    (h : ∀ t s o, I t o → WP (body t) (fun r _ o' => I r.1 o') s o) :
    ∀ (fuel : Nat) (t : T) (s : σ) (o : Nat), I t o → WP (loop body fuel t) (fun t' _ o' => I t' o') s o
  | 0, _, _, _, _ => by rintro _ _ _ ⟨⟩
  | fuel + 1, t, s, o, ho => by
    unfold loop
    refine WP.bind_ ((h t s o ho).mono fun ⟨t', more⟩ s' o' h1 => ?_)
    cases more with
    | false => exact WP.pure_ h1
    | true => exact WP.loop_inv I h fuel t' s' o' h1

theorem WP.forIn_inv {T A : Type} {body : T → A → M σ (A × Bool)} (I Q : A → Nat → Prop) {l : List T}
    (hl : ∀ a o, I a o → Q a o)
    (h : ∀ x ∈ l, ∀ a s o, I a o → WP (body x a) (fun r _ o' => (r.2 = true → I r.1 o') ∧ (r.2 = false → Q r.1 o')) s o)
    (a : A) (s : σ) (o : Nat) (ho : I a o) : WP (forIn_ body l a) (fun a' _ o' => Q a' o') s o := by
  induction l generalizing a s o with
  | nil => exact WP.pure_ (hl a o ho)
  | cons x l ih =>
    unfold forIn_
    refine WP.bind_ ((h x (by simp) a s o ho).mono fun ⟨a', more⟩ s' o' h1 => ?_)
    cases more with
    | false => exact WP.pure_ (h1.2 rfl)
    | true => exact ih (fun y hy => h y (List.mem_cons_of_mem _ hy)) a' s' o' (h1.1 rfl)

/-- Follow a body, watching the offset. -/
syntax "wpm" : tactic
macro_rules
  | `(tactic| wpm) => `(tactic| repeat' (first
      | omega
      | (with_reducible apply WP.bind_) | (with_reducible apply GWP.bind_)
      | (with_reducible apply WP.pure_) | (with_reducible apply GWP.pure_)
      | (with_reducible apply WP.offset_) | (with_reducible apply WP.setOffset_)
      | (with_reducible exact WP.panic__)
      | (with_reducible apply WP.peekCtx_) | (with_reducible apply WP.moveCtx_)
      | (with_reducible apply WP.addAssign_) | (with_reducible apply WP.inspectErr_)
      | (with_reducible apply GWP.try__) | (with_reducible apply GWP.beg_)
      | (with_reducible apply GWP.processRet_)
      | (with_reducible apply GWP.call_) | (with_reducible apply GWP.tryMat_)
      | (with_reducible apply WP.guarded_) | (with_reducible apply WP.function_)
      | (with_reducible refine Moves.use (by assumption) ?_ ?_)
      | (with_reducible refine Stays.use (by assumption) ?_ ?_)
      | (with_reducible intro _)
      | (with_reducible apply And.intro)
      | contradiction
      | split))

section
omit [Item ι]
variable {L : Nat} {mt : Pat ι β → M σ (Except Error Span)}
  {cn : Pat ι β → M σ (Except Error (Val β))} {a b c q : Pat ι β}

omit [Item ι] in
theorem isOk_ok_ (a : α) : isOk (Except.ok a : Except Error α) = true := rfl
theorem isOk_error_ (e : Error) : isOk (Except.error e : Except Error α) = false := rfl

/-- Close what `wpm` leaves. -/
syntax "wpm!" : tactic
macro_rules
  | `(tactic| wpm!) => `(tactic| (wpm; all_goals (try simp only [Except.ok.injEq, reduceCtorEq] at *); all_goals (try subst_vars); all_goals (try simp_all [isOk_ok_, isOk_error_]); all_goals (try omega)))

theorem moves_thn1 (ha : Moves L (cn a)) (hb : Stays L (cn b)) : Moves L (Imp.thnC cn a b) := by
  intro s o ho; dsimp +zetaHave only [Imp.thnC]; wpm!

theorem moves_thn2 (ha : Stays L (cn a)) (hb : Moves L (cn b)) : Moves L (Imp.thnC cn a b) := by
  intro s o ho; dsimp +zetaHave only [Imp.thnC]; wpm!

theorem moves_pre1 (ha : Moves L (mt a)) (hb : Stays L (cn b)) : Moves L (Imp.preC mt cn a b) := by
  intro s o ho; dsimp +zetaHave only [Imp.preC]; wpm!

theorem moves_pre2 (ha : Stays L (mt a)) (hb : Moves L (cn b)) : Moves L (Imp.preC mt cn a b) := by
  intro s o ho; dsimp +zetaHave only [Imp.preC]; wpm!

theorem moves_suf1 (ha : Moves L (cn a)) (hb : Stays L (mt b)) : Moves L (Imp.sufC mt cn a b) := by
  intro s o ho; dsimp +zetaHave only [Imp.sufC]; wpm!

theorem moves_suf2 (ha : Stays L (cn a)) (hb : Moves L (mt b)) : Moves L (Imp.sufC mt cn a b) := by
  intro s o ho; dsimp +zetaHave only [Imp.sufC]; wpm!

theorem moves_enclose1 (ha : Moves L (mt a)) (hb : Stays L (cn b)) (hc : Stays L (mt c)) :
    Moves L (Imp.encloseC mt cn a b c) := by
  intro s o ho; dsimp +zetaHave only [Imp.encloseC]; wpm!

theorem moves_enclose2 (ha : Stays L (mt a)) (hb : Moves L (cn b)) (hc : Stays L (mt c)) :
    Moves L (Imp.encloseC mt cn a b c) := by
  intro s o ho; dsimp +zetaHave only [Imp.encloseC]; wpm!

theorem moves_enclose3 (ha : Stays L (mt a)) (hb : Stays L (cn b)) (hc : Moves L (mt c)) :
    Moves L (Imp.encloseC mt cn a b c) := by
  intro s o ho; dsimp +zetaHave only [Imp.encloseC]; wpm!

theorem moves_ifThen (ha : Moves L (cn a)) (hb : Stays L (mt b)) (hc : Stays L (cn c)) :
    Moves L (Imp.ifThenC mt cn a b c) := by
  intro s o ho; dsimp +zetaHave only [Imp.ifThenC]; wpm!

theorem moves_or (ha : Moves L (cn a)) (hb : Moves L (cn b)) : Moves L (Imp.orC cn a b) := by
  intro s o ho; dsimp +zetaHave only [Imp.orC]; wpm!

theorem moves_map {f : Val β → Out (Val β)} (ha : Moves L (cn a)) : Moves L (Imp.mapC cn a f) := by
  intro s o ho; dsimp +zetaHave only [Imp.mapC]; wpm!

theorem moves_invoke {H : Handler ι β σ} {d : List ι} {m : M σ (Except Error Span)} (hm : Moves L m) :
    Moves L (Imp.invoke H d m) := by
  intro s o ho
  refine WP.bind_ (hm.use ho fun r s' o' h1 h2 h3 => ?_)
  cases r with
  | error e => exact WP.pure_ ⟨h1, h2, fun h => by cases h⟩
  | ok a =>
    intro r s'' o'' hr
    have := h3 rfl
    simp only at hr
    split at hr <;> cases hr <;> exact ⟨h1, h2, fun _ => this⟩

theorem moves_choice {e : Error} {items : List (Pat ι β × Option (Val β))}
    (h : ∀ it ∈ items, Moves L (cn it.1)) : Moves L (Imp.choiceC cn e items) := by
  intro s o ho
  dsimp +zetaHave only [Imp.choiceC]
  refine WP.bind_ (WP.offset_ ?_)
  refine (WP.forIn_inv (fun (r : Except Error (Val β)) o' => o = o' ∧ isOk r = false)
    (fun (r : Except Error (Val β)) o' => o ≤ o' ∧ o' ≤ L ∧ (isOk r = true → o < o')) ?_ ?_ _ s o ⟨rfl, rfl⟩)
  · rintro r o' ⟨rfl, h⟩
    exact ⟨Nat.le_refl _, ho, fun h' => by simp [h] at h'⟩
  · rintro it hit r s o' ⟨rfl, hr⟩
    have := h it hit
    wpm!

theorem moves_rep {r : CRange} (ha : Moves L (cn a)) (hr : ¬ r.lo.allowsFrom 0) (fuel : Nat) :
    Moves L (Imp.repC cn fuel a r) := by
  intro s o ho
  dsimp +zetaHave only [Imp.repC]
  refine WP.bind_ (WP.offset_ ?_)
  refine WP.bind_ ((WP.loop_inv (fun (t : Nat × List (Val β)) o' => o ≤ o' ∧ o' ≤ L ∧ (0 < t.1 → o < o')) ?_ fuel _ s o
    ⟨Nat.le_refl _, ho, fun h => by cases h⟩).mono ?_)
  · intro t s o' ⟨h1, h2, h3⟩
    wpm!
  · intro t s o' ⟨h1, h2, h3⟩
    refine WP.inspectErr_ (fun v hv => ⟨h1, h2, fun _ => ?_⟩) (fun e he => ⟨Nat.le_refl _, ho, fun h => by rw [he] at h; cases h⟩)
    split at hv
    · rename_i h
      rw [contains_iff] at h
      exact h3 (Nat.pos_of_ne_zero fun h0 => hr (h0 ▸ h.1))
    · cases hv

theorem moves_collect {m : Nat} (ha : Moves L (cn a)) (hr : 0 < m) (fuel : Nat) :
    Moves L (Imp.collectC cn fuel a m) := by
  intro s o ho
  dsimp +zetaHave only [Imp.collectC]
  refine WP.bind_ (WP.offset_ ?_)
  refine WP.bind_ ((WP.loop_inv (fun (t : Nat × List (Val β)) o' => o ≤ o' ∧ o' ≤ L ∧ (0 < t.1 → o < o')) ?_ fuel _ s o
    ⟨Nat.le_refl _, ho, fun h => by cases h⟩).mono ?_)
  · intro t s o' ⟨h1, h2, h3⟩
    wpm!
  · intro t s o' ⟨h1, h2, h3⟩
    refine WP.inspectErr_ (fun v hv => ⟨h1, h2, fun _ => ?_⟩) (fun e he => ⟨Nat.le_refl _, ho, fun h => by rw [he] at h; cases h⟩)
    split at hv
    · exact h3 (by omega)
    · cases hv

theorem moves_sep {m : Nat} {skip : Bool} (ha : Moves L (cn a)) (hb : Stays L (mt b)) (hr : 0 < m) (fuel : Nat) :
    Moves L (Imp.sepC mt cn fuel a b skip m) := by
  intro s o ho
  dsimp +zetaHave only [Imp.sepC]
  refine WP.bind_ (WP.offset_ ?_)
  refine WP.bind_ ((WP.loop_inv (fun (t : List (Val β)) o' => o ≤ o' ∧ o' ≤ L ∧ (0 < t.length → o < o')) ?_ fuel _ s o
    ⟨Nat.le_refl _, ho, fun h => by cases h⟩).mono ?_)
  · intro t s o' ⟨h1, h2, h3⟩
    wpm!
  · intro t s o' ⟨h1, h2, h3⟩
    refine WP.inspectErr_ (fun v hv => ⟨h1, h2, fun _ => ?_⟩) (fun e he => ⟨Nat.le_refl _, ho, fun h => by rw [he] at h; cases h⟩)
    split at hv
    · exact h3 (by omega)
    · cases hv

end

/-- The local condition: matched parts are safe, closures stay inside. -/
def CSafe (G : Rules ι β) (pol : Option (Pat ι β)) (d : List ι) (q : Pat ι β) : Prop :=
  (∀ m, MatchPart m q → All G (Safe G pol) m) ∧ DynForward d q

theorem csafe_forward (hpol : SafePol G pol) {p : Pat ι β} (h : CAll G (CSafe G pol d) p) :
    CAll G (CForward G pol d) p :=
  h.mono fun _ hq => ⟨fun m hm => movesForward_of_safe hpol (hq.1 m hm) d, hq.2⟩

theorem con_moves (hpol : SafePol G pol) {p : Pat ι β} (hc : Consuming G p) :
    CAll G (CSafe G pol d) p → ∀ n, Moves (blen d) (impCon G H n pol d p) := by
  have sm : ∀ {m}, All G (Safe G pol) m → ∀ n, Stays (blen d) (impMat (impParse (σ := σ) G n) pol d m) := by
    intro m hm n s o ho r s' o' hr
    rw [impMat_parse] at hr
    have h1 := (liftR_inv hr).2
    have h2 := movesForward_of_safe hpol hm d o ho
    cases r with
    | ok a => exact h2.1 a o' ⟨n, h1⟩
    | error e => exact h2.2 e o' ⟨n, h1⟩
  have mm : ∀ {m}, All G (Safe G pol) m → Consuming G m → ∀ n,
      Moves (blen d) (impMat (impParse (σ := σ) G n) pol d m) := by
    intro m hm hc n s o ho r s' o' hr
    have h0 := sm hm n s o ho r s' o' hr
    refine ⟨h0.1, h0.2, fun hok => ?_⟩
    rw [impMat_parse] at hr
    have h1 := (liftR_inv hr).2
    cases r with
    | ok a => exact C35_consuming_eats hpol m hm hc d o a o' ho ⟨n, h1⟩
    | error e => cases hok
  have sc : ∀ {q}, CAll G (CSafe G pol d) q → ∀ n, Stays (blen d) (impCon G H n pol d q) := by
    intro q hq n s o ho r s' o' hr
    rw [imp_con] at hr
    have h1 := liftC_inv hr
    cases r with
    | ok a => exact con_post n (csafe_forward hpol hq) s o ho _ h1
    | error e => exact con_post n (csafe_forward hpol hq) s o ho _ h1
  have zero : ∀ {q}, Moves (blen d) (impCon G H 0 pol d q) := by rintro _ _ _ _ _ _ _ ⟨⟩
  have go : ∀ {q}, (∀ n, Moves (blen d) (impCon G H (n + 1) pol d q)) → ∀ n, Moves (blen d) (impCon G H n pol d q) :=
    fun h n => match n with
    | 0 => zero
    | n + 1 => h n
  induction hc with
  | lit h => exact fun ha => go fun n => moves_invoke (mm (ha.self.1 _ rfl) (.lit h) _)
  | consume h => exact fun ha => go fun n => moves_invoke (mm (ha.self.1 _ rfl) (.consume h) _)
  | once => exact fun ha => go fun n => moves_invoke (mm (ha.self.1 _ rfl) .once _)
  | many1 => exact fun ha => go fun n => moves_invoke (mm (ha.self.1 _ rfl) .many1 _)
  | thn1 _ ih =>
    exact fun ha => go fun n =>
      moves_thn1 (ih (ha.child (.inl rfl)) n) (sc (ha.child (.inr rfl)) n)
  | thn2 _ ih =>
    exact fun ha => go fun n =>
      moves_thn2 (sc (ha.child (.inl rfl)) n) (ih (ha.child (.inr rfl)) n)
  | pre1 h _ =>
    exact fun ha => go fun n =>
      moves_pre1 (mm (ha.self.1 _ rfl) h _) (sc (ha.child rfl) n)
  | pre2 _ ih =>
    exact fun ha => go fun n =>
      moves_pre2 (sm (ha.self.1 _ rfl) _) (ih (ha.child rfl) n)
  | suf1 _ ih =>
    exact fun ha => go fun n =>
      moves_suf1 (ih (ha.child rfl) n) (sm (ha.self.1 _ rfl) _)
  | suf2 h _ =>
    exact fun ha => go fun n =>
      moves_suf2 (sc (ha.child rfl) n) (mm (ha.self.1 _ rfl) h _)
  | enclose1 h _ =>
    exact fun ha => go fun n =>
      moves_enclose1 (mm (ha.self.1 _ (.inl rfl)) h _) (sc (ha.child rfl) n) (sm (ha.self.1 _ (.inr rfl)) _)
  | enclose2 _ ih =>
    exact fun ha => go fun n =>
      moves_enclose2 (sm (ha.self.1 _ (.inl rfl)) _) (ih (ha.child rfl) n) (sm (ha.self.1 _ (.inr rfl)) _)
  | enclose3 h _ =>
    exact fun ha => go fun n =>
      moves_enclose3 (sm (ha.self.1 _ (.inl rfl)) _) (sc (ha.child rfl) n) (mm (ha.self.1 _ (.inr rfl)) h _)
  | ifThen _ ih =>
    exact fun ha => go fun n =>
      moves_ifThen (ih (ha.child (.inl rfl)) n) (sm (ha.self.1 _ rfl) _) (sc (ha.child (.inr rfl)) n)
  | or _ _ ih1 ih2 =>
    exact fun ha => go fun n =>
      moves_or (ih1 (ha.child (.inl rfl)) n) (ih2 (ha.child (.inr rfl)) n)
  | choice _ ih =>
    exact fun ha => go fun n =>
      moves_choice fun it hit => ih it hit (ha.child ⟨it, hit, rfl⟩) n
  | rep _ hr ih => exact fun ha => go fun n => moves_rep (ih (ha.child rfl) n) hr n
  | collect _ hm ih => exact fun ha => go fun n => moves_collect (ih (ha.child rfl) n) hm n
  | sep _ hm ih =>
    exact fun ha => go fun n =>
      moves_sep (ih (ha.child rfl) n) (sm (ha.self.1 _ rfl) _) hm n
  | map _ ih => exact fun ha => go fun n => moves_map (ih (ha.child rfl) n)
  | pat h _ => exact fun ha => go fun n => moves_invoke (mm (ha.self.1 _ rfl) h _)
  | @cell i p hG _ ih =>
    refine fun ha => go fun n => ?_
    simp only [impCon, impConStep, hG]
    exact ih (ha.child hG) n

/-- A `Consuming` pattern whose value has been built has consumed something. -/
theorem consuming_ceats (hpol : SafePol G pol) {p : Pat ι β} (hs : CAll G (CSafe G pol d) p)
    (hc : Consuming G p) : CEats G H pol d p := by
  intro o st v st' o' ho ⟨n, h⟩
  have := con_moves (H := H) hpol hc hs n st o ho (.ok v) st' o' (by rw [imp_con]; unfold liftC; rw [h])
  exact this.2.2 rfl

end Neure
